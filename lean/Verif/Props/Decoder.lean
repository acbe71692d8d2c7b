import Verif.Lemmas.Decode
import Verif.Props.Codec
import Verif.Props.RoundTrip

/-! # C32 – C38: the packet decoder on arbitrary input -/

namespace CBus.Props
open CBus CBus.Spec

/-! ## How positions and results arise -/

/-- A result of the payload decoder: never "nothing"; the position is the end
of the line, except that a bare CAL adds its own length. -/
theorem decodeBody_result {d : Bytes} {c : Nat} {cs fp dm : Bool} {conf : Option UInt8}
    {r : Option Packet} {n : Nat} (h : decodeBody d c cs fp dm conf = .ok (r, n)) :
    r ≠ none ∧ (n = c ∨ (dm = true ∧ (∃ x, r = some (.cal x)) ∧ c ≤ n ∧ n ≤ c + d.length)) := by
  have disp : ∀ dat dp data prio p k, dispatch dat dp dm data cs prio = .ok (p, k) →
      k = 0 ∨ (dm = true ∧ (∃ x, p = .cal x) ∧ k ≤ data.length) := by
    intro dat dp data prio p k h
    unfold dispatch at h
    simp only [bind, Except.bind, pure, Except.pure] at h
    split at h
    · split at h
      · cases h
      · injection h with h; injection h with _ h; exact Or.inl h.symm
    · split at h
      · rename_i hdm
        split at h
        · cases h
        · rename_i v hv
          injection h with h; injection h with h1 h2
          right
          refine ⟨hdm, ⟨_, h1.symm⟩, ?_⟩
          rw [← h2]
          exact (decodeCal_ok (c := v.1) (n := v.2) hv).2.1
      · split at h
        all_goals first
          | cases h; done
          | (split at h
             · cases h
             · injection h with h; injection h with _ h; exact Or.inl h.symm)
  have att : ∀ fp conf src (x : CAL), attach fp conf src (.cal x) = .cal x := by
    intro fp conf src x
    unfold attach
    cases fp
    · rfl
    · simp only [Bool.not_true, Bool.false_eq_true, if_false]
      cases src with
      | none => rfl
      | some s => simp only; split <;> rfl
  unfold decodeBody at h
  split at h
  · cases h
  · rename_i flags data1
    split at h
    · injection h with h; injection h with h1 h2; subst h1 h2; exact ⟨by simp, Or.inl rfl⟩
    · simp only at h
      split at h
      · split at h
        · injection h with h; injection h with h1 h2; subst h1 h2; exact ⟨by simp, Or.inl rfl⟩
        · rename_i s data2
          split at h
          · injection h with h; injection h with h1 h2; subst h1 h2; exact ⟨by simp, Or.inl rfl⟩
          · rename_i p k hd
            injection h with h; injection h with h1 h2; subst h1 h2
            refine ⟨by simp, ?_⟩
            rcases disp _ _ _ _ _ _ hd with h0 | ⟨h1, ⟨x, h2⟩, h3⟩
            · left; omega
            · right; refine ⟨h1, ⟨x, by rw [h2, att]⟩, ?_⟩; simp; omega
      · split at h
        · injection h with h; injection h with h1 h2; subst h1 h2; exact ⟨by simp, Or.inl rfl⟩
        · rename_i p k hd
          injection h with h; injection h with h1 h2; subst h1 h2
          refine ⟨by simp, ?_⟩
          rcases disp _ _ _ _ _ _ hd with h0 | ⟨h1, ⟨x, h2⟩, h3⟩
          · left; omega
          · right; refine ⟨h1, ⟨x, by rw [h2, att]⟩, ?_⟩; simp; omega

theorem decodeRaw_result {d : Bytes} {c : Nat} {cs strict fp dm : Bool} {conf : Option UInt8}
    {r : Option Packet} {n : Nat} (h : decodeRaw d c cs strict fp dm conf = .ok (r, n)) :
    r ≠ none ∧ (n = c ∨ (dm = true ∧ (∃ x, r = some (.cal x)) ∧ c ≤ n ∧ n ≤ c + d.length)) := by
  unfold decodeRaw at h
  split at h
  · split at h
    · cases h
    · split at h
      · injection h with h; injection h with h1 h2; subst h1 h2; exact ⟨by simp, Or.inl rfl⟩
      · obtain ⟨h1, h2⟩ := decodeBody_result h
        refine ⟨h1, ?_⟩
        rcases h2 with h2 | ⟨a, b, c⟩
        · exact Or.inl h2
        · right; refine ⟨a, b, ?_⟩; simp at c; omega
  · exact decodeBody_result h

theorem decodeHex_result {d : Bytes} {c : Nat} {cs strict fp dm : Bool} {conf : Option UInt8}
    {r : Option Packet} {n : Nat} (h : decodeHex d c cs strict fp dm conf = .ok (r, n)) :
    r ≠ none ∧ (n = c ∨ (dm = true ∧ (∃ x, r = some (.cal x)) ∧ c ≤ n ∧ 2 * n ≤ 2 * c + d.length)) := by
  unfold decodeHex at h
  split at h
  · split at h
    · cases h
    · rename_i raw hraw
      obtain ⟨h1, h2⟩ := decodeRaw_result h
      have := b16encode_length raw
      rw [b16encode_of_b16decode _ _ hraw] at this
      refine ⟨h1, ?_⟩
      rcases h2 with h2 | ⟨a, b, c⟩
      · exact Or.inl h2
      · right; refine ⟨a, b, by omega⟩
  · injection h with h; injection h with h1 h2; subst h1 h2; exact ⟨by simp, Or.inl rfl⟩

theorem decodeConf_result {d : Bytes} {c : Nat} {cs strict dm : Bool}
    {r : Option Packet} {n : Nat} (h : decodeConf d c cs strict dm = .ok (r, n)) :
    r ≠ none ∧ (n = c ∨ (dm = true ∧ (∃ x, r = some (.cal x)) ∧ c ≤ n ∧ 2 * n ≤ 2 * c + d.length)) := by
  unfold decodeConf at h
  split at h
  · cases h
  · split at h
    · exact decodeHex_result h
    · split at h
      · injection h with h; injection h with h1 h2; subst h1 h2; exact ⟨by simp, Or.inl rfl⟩
      · obtain ⟨h1, h2⟩ := decodeHex_result h
        refine ⟨h1, ?_⟩
        rcases h2 with h2 | ⟨a, b, c⟩
        · exact Or.inl h2
        · right; refine ⟨a, b, ?_⟩; simp at c; omega

theorem decodeLine_result {l : Bytes} {c : Nat} {cs strict fp : Bool}
    {r : Option Packet} {n : Nat} (h : decodeLine l c cs strict fp = .ok (r, n)) :
    (r = none ↔ l = []) ∧ (n = c ∨ (fp = false ∧ (∃ x, r = some (.cal x)) ∧ c ≤ n ∧ 2 * n ≤ 2 * c + l.length)) := by
  unfold decodeLine at h
  split at h
  · injection h with h; injection h with h1 h2; subst h1 h2; exact ⟨by simp, Or.inl rfl⟩
  · rename_i x rest
    split at h
    · obtain ⟨h1, h2⟩ := decodeHex_result h
      refine ⟨by simp [h1], ?_⟩
      rcases h2 with h2 | ⟨a, -, -⟩
      · exact Or.inl h2
      · cases a
    · rename_i hfp
      have hfp' : fp = false := by simpa using hfp
      repeat' split at h
      all_goals
        obtain ⟨h1, h2⟩ := decodeConf_result h
        refine ⟨by simp [h1], ?_⟩
        rcases h2 with h2 | ⟨a, b, c⟩
        · exact Or.inl h2
        · right; refine ⟨hfp', b, ?_⟩; simp at c ⊢; omega

/-! ## C33 -/

theorem framePci_result {data : Bytes} {p : Option Packet} {n : Nat} (h : framePci data = .result p n) :
    n ≤ data.length ∧ (p ≠ none → 0 < n) ∧ (p = none → n = 0) := by
  unfold framePci at h
  split at h
  · injection h with h1 h2; subst h1 h2; simp
  · repeat' split at h
    all_goals first
      | cases h; done
      | (injection h with h1 h2; subst h1 h2; simp; done)
      | (injection h with h1 h2; subst h1 h2
         rename_i c rest _ _ hl _
         simp only [minMessageSize, List.length_cons] at hl ⊢
         refine ⟨by omega, by simp, by simp⟩)

theorem frameClient_result {data : Bytes} {p : Option Packet} {n : Nat} (h : frameClient data = .result p n) :
    n ≤ data.length ∧ (p ≠ none → 0 < n) := by
  have pre : ∀ (q : Bytes), q.isPrefixOf data = true → q.length ≤ data.length := fun q hq =>
    (List.isPrefixOf_iff_prefix.1 hq).length_le
  unfold frameClient at h
  split at h
  · injection h with h1 h2; subst h1 h2; simp
  · split at h
    · rename_i hp; have := pre _ hp
      injection h with h1 h2; subst h1 h2; simp at this ⊢; exact this
    · split at h
      · rename_i hp; have := pre _ hp
        injection h with h1 h2; subst h1 h2; simp at this ⊢; exact this
      · split at h
        · rename_i hp
          split at h
          · rename_i e he
            have := (find_single_split he).2.2
            injection h with h1 h2; subst h1 h2; simp; omega
          · rename_i hn
            exfalso
            have hcr := (find_single_none _ _).1 hn
            apply hcr
            rcases hp with hp | hp
            · exact (List.isPrefixOf_iff_prefix.1 hp).subset (by decide)
            · exact (List.isPrefixOf_iff_prefix.1 hp).subset (by decide)
        · split at h
          · split at h
            · rename_i nlp qp hf hq hlt
              have := (find_single_split hq).2.2
              injection h with h1 h2; subst h1 h2; simp; omega
            · cases h
          · cases h
          · injection h with h1 h2; subst h1 h2; simp

/-- C33 except for bare CALs: every position `decode_packet` returns is within
the input. For a bare CAL (only possible in direct command access or with the
backslash missing, on the server's side) the position is still below one and a
half times the length of the input.

Missing from the full claim: bare CALs (see `C33_false`). -/
theorem C33_position_partial (data : Bytes) (cs strict fp : Bool) (r : Option Packet) (n : Nat)
    (h : decodePacket data cs strict fp = .ok (r, n)) :
    (n ≤ data.length ∨ (fp = false ∧ ∃ x, r = some (.cal x))) ∧ 2 * n ≤ 3 * data.length := by
  unfold decodePacket at h
  cases fp with
  | true =>
    rw [if_pos rfl] at h
    split at h
    · rename_i p k hf
      injection h with h; injection h with h1 h2; subst h1 h2
      have := (framePci_result hf).1
      exact ⟨Or.inl this, by omega⟩
    · rename_i l k hf
      obtain ⟨rest, h1, h2⟩ := framePci_inv hf
      have hlen : data.length = l.length + 2 + rest.length := by rw [h1]; simp; omega
      obtain ⟨-, h3⟩ := decodeLine_result h
      rcases h3 with h3 | ⟨h3, -⟩
      · exact ⟨Or.inl (by omega), by omega⟩
      · cases h3
  | false =>
    rw [if_neg (by simp)] at h
    split at h
    · rename_i p k hf
      injection h with h; injection h with h1 h2; subst h1 h2
      have := (frameClient_result hf).1
      exact ⟨Or.inl this, by omega⟩
    · rename_i l k hf
      obtain ⟨rest, h1, -, -, h2⟩ := frameClient_inv hf
      have hlen : data.length = l.length + 1 + rest.length := by rw [h1]; simp; omega
      obtain ⟨-, h3⟩ := decodeLine_result h
      rcases h3 with h3 | ⟨-, h3, h4⟩
      · exact ⟨Or.inl (by omega), by omega⟩
      · exact ⟨Or.inr ⟨rfl, h3⟩, by omega⟩

/-- C33 is false: a direct RECALL command of ten bytes is reported as consuming
thirteen. -/
theorem C33_false : ¬ (∀ (data : Bytes) (cs strict fp : Bool) (r : Option Packet) (n : Nat),
    decodePacket data cs strict fp = .ok (r, n) → n ≤ data.length) := by
  intro h
  have := h (ascii "@001A2001\r") true true false (some (.cal (.recall 0x20 1))) 13 (by decide +kernel)
  revert this
  decide +kernel

/-! ## C34 -/

/-- The buffer holds a complete message from the PCI: a one-byte notification, a
confirmation, or a line. -/
def PciComplete (data : Bytes) : Prop :=
  data.head? = some 0x2b ∨ data.head? = some 0x21 ∨
  (2 ≤ data.length ∧ ∃ c ∈ confirmationCodes, data.head? = some c) ∨
  ∃ l rest, data = l ++ 0x0d :: 0x0a :: rest

/-- The buffer holds a complete message to the PCI. -/
def ClientComplete (data : Bytes) : Prop :=
  data.head? = some 0x7e ∨ [0x6e, 0x75, 0x6c, 0x6c] <+: data ∨ (0x0d : UInt8) ∈ data

theorem find_pair_none {a b : UInt8} {d : Bytes} (h : find [a, b] d = none) (l rest : Bytes) :
    d ≠ l ++ a :: b :: rest := by
  intro he
  have := find_none_spec _ _ h l.length (by rw [he]; simp)
  rw [he] at this
  simp [List.isPrefixOf] at this

/-- C34, PCI to client: nothing is consumed exactly when no message is
complete, and then nothing is reported. -/
theorem C34_pci (data : Bytes) (cs strict : Bool) :
    (¬ PciComplete data → decodePacket data cs strict true = .ok (none, 0)) ∧
    (PciComplete data → ∀ r n, decodePacket data cs strict true = .ok (r, n) → 0 < n) := by
  constructor
  · intro h
    unfold PciComplete at h
    simp only [not_or, not_and, not_exists] at h
    obtain ⟨h1, h2, h3, h4⟩ := h
    unfold decodePacket
    rw [if_pos rfl]
    have : framePci data = .result none 0 := by
      unfold framePci
      cases data with
      | nil => rfl
      | cons c rest =>
        simp only at *
        rw [if_neg (by intro h; apply h1; simp [h]), if_neg (by intro h; apply h2; simp [h])]
        split
        · rfl
        · rename_i hl
          rw [if_neg (by
            intro hc; exact h3 (by simp [minMessageSize] at hl ⊢; omega) c hc (by simp))]
          cases hf : find endResponse (c :: rest) with
          | none => rfl
          | some e => exact absurd (find_pair_split hf).1 (h4 _ _)
    rw [this]
  · intro hc r n h
    unfold decodePacket at h
    rw [if_pos rfl] at h
    split at h
    · rename_i p k hf
      injection h with h; injection h with h1 h2; subst h1 h2
      obtain ⟨-, f1, f2⟩ := framePci_result hf
      by_cases hp : p = none
      · exfalso
        subst hp
        unfold framePci at hf
        cases data with
        | nil =>
          rcases hc with h | h | ⟨h, -⟩ | ⟨l, rest, h⟩ <;> simp at h
        | cons c rest =>
          simp only at hf
          repeat' split at hf
          all_goals first
            | cases hf; done
            | (rename_i n1 n2 hl
               rcases hc with h | h | ⟨h, -⟩ | ⟨l, r, h⟩
               · simp at h; exact n1 h
               · simp at h; exact n2 h
               · simp only [minMessageSize] at hl; omega
               · rw [h] at hl; simp [minMessageSize] at hl; omega)
            | (rename_i n1 n2 n3 n4 _ hff
               rcases hc with h | h | ⟨-, x, h1, h⟩ | ⟨l, r, h⟩
               · simp at h; exact n1 h
               · simp at h; exact n2 h
               · simp at h; subst h; exact n4 h1
               · exact find_pair_none hff l r h)
      · exact f1 hp
    · rename_i l k hf
      obtain ⟨rest, h1, h2⟩ := framePci_inv hf
      obtain ⟨-, h3⟩ := decodeLine_result h
      rcases h3 with h3 | ⟨h3, -⟩
      · omega
      · cases h3

/-- C34, client to PCI. -/
theorem C34_client (data : Bytes) (cs strict : Bool) :
    (¬ ClientComplete data → decodePacket data cs strict false = .ok (none, 0)) ∧
    (ClientComplete data → ∀ r n, decodePacket data cs strict false = .ok (r, n) → 0 < n) := by
  have pre : ∀ (q : Bytes), q.isPrefixOf data = true ↔ q <+: data := fun q => List.isPrefixOf_iff_prefix
  have tilde : [0x7e].isPrefixOf data = true ↔ data.head? = some 0x7e := by
    cases data with
    | nil => simp [List.isPrefixOf]
    | cons x xs => simp [List.isPrefixOf]; exact ⟨fun h => h.symm, fun h => h.symm⟩
  constructor
  · intro h
    unfold ClientComplete at h
    simp only [not_or] at h
    obtain ⟨h1, h2, h3⟩ := h
    unfold decodePacket
    rw [if_neg (by simp)]
    have hn : find endCommand data = none := (find_single_none _ _).2 h3
    have : frameClient data = .result none 0 := by
      unfold frameClient
      cases data with
      | nil => rfl
      | cons x xs =>
        simp only
        rw [if_neg (by rw [tilde]; exact h1), if_neg (by rw [pre]; exact h2), if_neg (by
          rintro (h | h)
          · exact h3 (((pre _).1 h).subset (by decide))
          · exact h3 (((pre _).1 h).subset (by decide))), hn]
    rw [this]
  · intro hc r n h
    unfold decodePacket at h
    rw [if_neg (by simp)] at h
    split at h
    · rename_i p k hf
      injection h with h; injection h with h1 h2; subst h1 h2
      obtain ⟨-, f1⟩ := frameClient_result hf
      by_cases hp : p = none
      · subst hp
        by_cases hk : k = 0
        · exfalso
          subst hk
          unfold frameClient at hf
          cases data with
          | nil => rcases hc with h | h | h <;> simp at h
          | cons x xs =>
            simp only at hf
            split at hf
            · cases hf
            · rename_i n1
              split at hf
              · cases hf
              · rename_i n2
                split at hf
                · split at hf <;> cases hf
                · split at hf
                  · split at hf <;> cases hf
                  · cases hf
                  · rename_i _ hnone
                    rcases hc with h | h | h
                    · exact n1 (tilde.2 h)
                    · exact n2 ((pre _).2 h)
                    · exact (find_single_none _ _).1 hnone h
        · omega
      · exact f1 hp
    · rename_i l k hf
      obtain ⟨rest, h1, -, -, h2⟩ := frameClient_inv hf
      obtain ⟨-, h3⟩ := decodeLine_result h
      rcases h3 with h3 | ⟨-, -, h4⟩
      · omega
      · omega

/-- C34: a packet is always reported with a positive position. -/
theorem C34_progress (data : Bytes) (cs strict fp : Bool) (p : Packet) (n : Nat)
    (h : decodePacket data cs strict fp = .ok (some p, n)) : 0 < n := by
  cases fp with
  | true =>
    by_cases hc : PciComplete data
    · exact (C34_pci data cs strict).2 hc _ _ h
    · rw [(C34_pci data cs strict).1 hc] at h; simp at h
  | false =>
    by_cases hc : ClientComplete data
    · exact (C34_client data cs strict).2 hc _ _ h
    · rw [(C34_client data cs strict).1 hc] at h; simp at h

example : ¬ PciComplete (ascii "05FA3800") ∧ PciComplete (ascii "05FA3800\r\n05") ∧
    ¬ ClientComplete (ascii "\\053800790142h") ∧ ClientComplete (ascii "\\05?\r") := by
  refine ⟨?_, Or.inr (Or.inr (Or.inr ⟨ascii "05FA3800", ascii "05", by decide +kernel⟩)), ?_,
    Or.inr (Or.inr (by decide +kernel))⟩
  · rintro (h | h | ⟨-, c, h1, h2⟩ | ⟨l, r, h⟩)
    · revert h; decide +kernel
    · revert h; decide +kernel
    · have e : (ascii "05FA3800").head? = some 0x30 := by decide +kernel
      rw [e] at h2; injection h2 with h2; subst h2; revert h1; decide
    · have : (0x0d : UInt8) ∈ ascii "05FA3800" := by rw [h]; simp
      revert this; decide +kernel
  · rintro (h | h | h)
    · revert h; decide +kernel
    · have := List.isPrefixOf_iff_prefix.2 h; revert this; decide +kernel
    · revert h; decide +kernel

/-! ## C35 -/

theorem framePci_append (data more : Bytes) (h : framePci data ≠ .result none 0) :
    framePci (data ++ more) = framePci data := by
  unfold framePci at h ⊢
  cases data with
  | nil => exact absurd rfl h
  | cons c rest =>
    simp only [List.cons_append] at h ⊢
    by_cases h1 : c = 0x2b
    · rw [if_pos h1, if_pos h1]
    rw [if_neg h1] at h ⊢
    rw [if_neg h1]
    by_cases h2 : c = 0x21
    · rw [if_pos h2, if_pos h2]
    rw [if_neg h2] at h ⊢
    rw [if_neg h2]
    by_cases h3 : (c :: rest).length < minMessageSize
    · rw [if_pos h3] at h; exact absurd rfl h
    rw [if_neg h3] at h ⊢
    rw [if_neg (by simp only [List.length_cons, List.length_append] at h3 ⊢; omega)]
    by_cases h4 : c ∈ confirmationCodes
    · rw [if_pos h4, if_pos h4]
      cases rest with
      | nil => simp [minMessageSize] at h3
      | cons y ys => rfl
    rw [if_neg h4] at h ⊢
    rw [if_neg h4]
    cases hf : find endResponse (c :: rest) with
    | none => rw [hf] at h; exact absurd rfl h
    | some e =>
      have := find_append_of_some _ _ more _ hf
      simp only [List.cons_append] at this
      rw [this]
      have hl := (find_pair_split hf).2
      simp only
      rw [← List.cons_append, List.take_append_of_le_length (by omega)]

theorem frameClient_eq {data : Bytes} (h : data ≠ []) : frameClient data =
    if [0x7e].isPrefixOf data then Framed.result (some .reset) 1
    else if [0x6e, 0x75, 0x6c, 0x6c].isPrefixOf data then .result none 4
    else if ([0x7c] ++ endCommand).isPrefixOf data ∨ ([0x7c, 0x7c] ++ endCommand).isPrefixOf data then
      match find endCommand data with
      | some e => .result (some .smartConnect) (e + 1)
      | none => .result (some .smartConnect) 0
    else
      match find endCommand data, find [0x3f] data with
      | some nlp, some qp =>
        if qp < nlp then .result none (qp + 1)
        else .line (data.take nlp) (nlp + endCommand.length)
      | some nlp, none => .line (data.take nlp) (nlp + endCommand.length)
      | none, _ => .result none 0 := by
  cases data with
  | nil => exact absurd rfl h
  | cons x xs => rfl

theorem frameClient_append (data more : Bytes) (h : frameClient data ≠ .result none 0) :
    frameClient (data ++ more) = frameClient data := by
  have pre : ∀ (q : Bytes), q.isPrefixOf data = true → q.isPrefixOf (data ++ more) = true := by
    intro q hq
    rw [List.isPrefixOf_iff_prefix] at hq ⊢
    exact hq.trans (List.prefix_append _ _)
  have hne : data ≠ [] := by rintro rfl; exact h rfl
  have hne' : data ++ more ≠ [] := by simp [hne]
  rw [frameClient_eq hne] at h ⊢
  rw [frameClient_eq hne']
  by_cases hcr : (0x0d : UInt8) ∈ data
  · -- on an input with a CR the prefix tests agree
    have same : ∀ (q : Bytes), (0x0d : UInt8) ∉ q.dropLast →
        q.isPrefixOf (data ++ more) = q.isPrefixOf data := by
      intro q hq
      rw [Bool.eq_iff_iff]
      refine ⟨?_, pre q⟩
      intro hp
      rw [List.isPrefixOf_iff_prefix] at hp ⊢
      rcases Nat.lt_or_ge data.length q.length with hlt | hle
      · exfalso
        have : data <+: q := List.prefix_of_prefix_length_le (List.prefix_append _ _) hp (by omega)
        obtain ⟨t, ht⟩ := this
        apply hq
        have htn : t ≠ [] := by rintro rfl; simp at ht; rw [ht] at hlt; omega
        rw [← ht, List.dropLast_append_of_ne_nil htn]
        exact List.mem_append_left _ hcr
      · exact List.prefix_of_prefix_length_le hp (List.prefix_append _ _) hle
    rw [same _ (by decide), same _ (by decide), same _ (by decide), same _ (by decide)]
    cases hf : find endCommand data with
    | none => exact absurd hcr ((find_single_none _ _).1 hf)
    | some nlp =>
      rw [find_append_of_some _ _ more _ hf]
      have hl := (find_single_split hf).2.2
      have ht : (data ++ more).take nlp = data.take nlp := List.take_append_of_le_length (by omega)
      cases hq : find [0x3f] data with
      | some qp => rw [find_append_of_some _ _ more _ hq]; simp only [ht]
      | none =>
        cases hq' : find [0x3f] (data ++ more) with
        | none => simp only [ht]
        | some qp =>
          have := find_single_lt ((find_single_none _ _).1 hq) hq'
          simp only
          rw [if_neg (by omega : ¬ qp < nlp), ht]
  · have hn : find endCommand data = none := (find_single_none _ _).2 hcr
    by_cases h1 : [0x7e].isPrefixOf data = true
    · rw [if_pos h1, if_pos (pre _ h1)]
    rw [if_neg h1] at h
    by_cases h2 : [0x6e, 0x75, 0x6c, 0x6c].isPrefixOf data = true
    · have h1' : ¬ [0x7e].isPrefixOf (data ++ more) = true := by
        obtain ⟨t, ht⟩ := List.isPrefixOf_iff_prefix.1 h2
        rw [← ht]; simp [List.isPrefixOf]
      rw [if_neg h1, if_pos h2, if_neg h1', if_pos (pre _ h2)]
    rw [if_neg h2, if_neg (by
      rintro (h | h)
      · exact hcr ((List.isPrefixOf_iff_prefix.1 h).subset (by decide))
      · exact hcr ((List.isPrefixOf_iff_prefix.1 h).subset (by decide))), hn] at h
    exact absurd rfl h

/-- C35: once a buffer gives anything other than "wait for more", bytes
received later do not change the outcome (including the outcome that
`decode_packet` raises). -/
theorem C35_prefix_stable (data more : Bytes) (cs strict fp : Bool)
    (h : decodePacket data cs strict fp ≠ .ok (none, 0)) :
    decodePacket (data ++ more) cs strict fp = decodePacket data cs strict fp := by
  unfold decodePacket at h ⊢
  cases fp with
  | true =>
    rw [if_pos rfl] at h ⊢
    rw [if_pos rfl, framePci_append]
    intro he; rw [he] at h; exact h rfl
  | false =>
    rw [if_neg (by simp)] at h ⊢
    rw [if_neg (by simp), frameClient_append]
    intro he; rw [he] at h; exact h rfl

example : decodePacket (ascii "h.05FA38") true true true ≠ .ok (none, 0) ∧
    decodePacket (ascii "0\r\n") true true true = .error .binasciiError := by decide +kernel

/-! ## C32 -/

/-- A packet with contents, as opposed to a notification or a report of an
invalid line. -/
def isMessage : Packet → Bool
  | .pm _ | .pp _ | .dm _ | .cal _ => true
  | _ => false

theorem sumsToZero_iff (m : Bytes) : SumsToZero m ↔ sumBytes m % 256 = 0 := by
  unfold SumsToZero; rw [← sumBytes_eq_sum]

theorem decodeRaw_bad {m : Bytes} (h : ¬ SumsToZero m) (c : Nat) (fp dm : Bool) (conf : Option UInt8) :
    decodeRaw m c true true fp dm conf = .ok (some (.invalid m .valueError), c) := by
  have hm : m ≠ [] := by rintro rfl; exact h rfl
  rw [sumsToZero_iff] at h
  simp [decodeRaw, validateChecksum_eq hm, h]

/-- C32: with checksums on, a complete line from the PCI with a wrong checksum
is reported as invalid, as a whole. -/
theorem C32_pci_invalid (m rest : Bytes) (h : ¬ SumsToZero m) :
    decodePacket (b16encode m ++ 0x0d :: 0x0a :: rest) true true true =
      .ok (some (.invalid m .valueError), 2 * m.length + 2) := by
  have hm : m ≠ [] := by rintro rfl; exact h rfl
  rw [decodePacket_pci_raw m rest hm, decodeRaw_bad h]

/-- C32: and a command line to the PCI, with or without the backslash. -/
theorem C32_client_invalid (backslash : Bool) (m rest : Bytes) (h : ¬ SumsToZero m) (conf : Option UInt8)
    (hc : ∀ c, conf = some c → c ∈ confirmationCodes) :
    ∃ n, decodePacket ((if backslash then [0x5c] else []) ++ b16encode m ++ conf.toList ++ 0x0d :: rest)
      true true false = .ok (some (.invalid m .valueError), n) := by
  have hm : m ≠ [] := by rintro rfl; exact h rfl
  cases backslash
  · have := decodePacket_client_raw .none m rest hm conf hc true true
    rw [decodeRaw_bad h] at this
    exact ⟨_, this⟩
  · have := decodePacket_client_raw .backslash m rest hm conf hc true true
    rw [decodeRaw_bad h] at this
    exact ⟨_, this⟩

theorem decodeRaw_message {m : Bytes} {c : Nat} {fp dm : Bool} {conf : Option UInt8} {q : Packet} {n : Nat}
    (h : decodeRaw m c true true fp dm conf = .ok (some q, n)) (hq : isMessage q = true) : SumsToZero m := by
  by_cases hs : SumsToZero m
  · exact hs
  · rw [decodeRaw_bad hs] at h
    injection h with h; injection h with h _; injection h with h; subst h
    simp [isMessage] at hq

theorem decodeHex_message {t : Bytes} {c : Nat} {fp dm : Bool} {conf : Option UInt8} {q : Packet} {n : Nat}
    (h : decodeHex t c true true fp dm conf = .ok (some q, n)) (hq : isMessage q = true) :
    ∃ m, t = b16encode m ∧ SumsToZero m := by
  unfold decodeHex at h
  split at h
  · split at h
    · cases h
    · rename_i raw hr
      exact ⟨raw, (b16encode_of_b16decode _ _ hr).symm, decodeRaw_message h hq⟩
  · injection h with h; injection h with h _; injection h with h; subst h
    simp [isMessage] at hq

/-- C32, the other way round: whatever bytes arrive from the PCI, a message is
reported only for a line that is the hexadecimal form of bytes with a correct
checksum. -/
theorem C32_pci_only_valid (data : Bytes) (q : Packet) (n : Nat)
    (h : decodePacket data true true true = .ok (some q, n)) (hq : isMessage q = true) :
    ∃ m rest, data = b16encode m ++ 0x0d :: 0x0a :: rest ∧ SumsToZero m := by
  unfold decodePacket at h
  rw [if_pos rfl] at h
  split at h
  · rename_i p k hf
    injection h with h; injection h with h1 h2; subst h1 h2
    exfalso
    unfold framePci at hf
    split at hf
    · cases hf
    · repeat' split at hf
      all_goals first
        | cases hf; done
        | (injection hf with h1 _; injection h1 with h1; subst h1; simp [isMessage] at hq)
  · rename_i l k hf
    obtain ⟨rest, h1, -⟩ := framePci_inv hf
    unfold decodeLine at h
    split at h
    · injection h with h; injection h with h _; cases h
    · rw [if_pos rfl] at h
      obtain ⟨m, e1, e2⟩ := decodeHex_message h hq
      exact ⟨m, rest, by rw [h1, e1], e2⟩

/-- The same towards the PCI; lines that start with `@` carry no checksum. -/
theorem C32_client_only_valid (data : Bytes) (q : Packet) (n : Nat)
    (h : decodePacket data true true false = .ok (some q, n)) (hq : isMessage q = true) :
    data.head? = some 0x40 ∨
    ∃ m rest pre, ∃ conf : Option UInt8, data = pre ++ b16encode m ++ conf.toList ++ 0x0d :: rest ∧
      (pre = [] ∨ pre = [0x5c]) ∧ (∀ c, conf = some c → c ∈ confirmationCodes) ∧ SumsToZero m := by
  have hconf : ∀ t c dm, decodeConf t c true true dm = .ok (some q, n) →
      ∃ m, ∃ conf : Option UInt8, t = b16encode m ++ conf.toList ∧
        (∀ c, conf = some c → c ∈ confirmationCodes) ∧ SumsToZero m := by
    intro t c dm h
    unfold decodeConf at h
    split at h
    · cases h
    · rename_i last hl
      split at h
      · obtain ⟨m, e1, e2⟩ := decodeHex_message h hq
        exact ⟨m, none, by simp [e1], by simp, e2⟩
      · split at h
        · injection h with h; injection h with h _; injection h with h; subst h
          simp [isMessage] at hq
        · rename_i hx
          obtain ⟨m, e1, e2⟩ := decodeHex_message h hq
          refine ⟨m, some last, ?_, ?_, e2⟩
          · rw [← e1]
            obtain ⟨ys, hys⟩ := List.getLast?_eq_some_iff.1 hl
            rw [hys]; simp
          · intro c hc
            injection hc with hc; subst hc
            simpa using hx
  unfold decodePacket at h
  rw [if_neg (by simp)] at h
  split at h
  · rename_i p k hf
    injection h with h; injection h with h1 h2; subst h1 h2
    exfalso
    unfold frameClient at hf
    split at hf
    · cases hf
    · repeat' split at hf
      all_goals first
        | cases hf; done
        | (injection hf with h1 _; injection h1 with h1; subst h1; simp [isMessage] at hq)
  · rename_i l k hf
    obtain ⟨rest, h1, -⟩ := frameClient_inv hf
    unfold decodeLine at h
    split at h
    · injection h with h; injection h with h _; cases h
    · rename_i x xs
      rw [if_neg (by simp)] at h
      split at h
      · rename_i hx; left; rw [h1, hx]; rfl
      · right
        split at h
        · rename_i hx
          obtain ⟨m, conf, e1, e2, e3⟩ := hconf _ _ _ h
          exact ⟨m, rest, [0x5c], conf, by rw [h1, e1, hx]; simp, Or.inr rfl, e2, e3⟩
        · obtain ⟨m, conf, e1, e2, e3⟩ := hconf _ _ _ h
          exact ⟨m, rest, [], conf, by rw [h1, e1]; simp, Or.inl rfl, e2, e3⟩

theorem set_not_sums {m : Bytes} (hv : SumsToZero m) {i : Nat} (hi : i < m.length) {v : UInt8} (hne : v ≠ m[i]) :
    ¬ SumsToZero (m.set i v) := by
  rw [sumsToZero_iff] at hv ⊢
  have := sumBytes_set m i hi v
  have h1 := v.toNat_lt
  have h2 := (m[i]).toNat_lt
  have h3 : v.toNat ≠ (m[i]).toNat := fun h => hne (UInt8.toNat_inj.1 h)
  omega

/-- C32: changing any one byte of a valid frame makes it an `InvalidPacket`, in
both directions. -/
theorem C32_single_byte (m : Bytes) (hv : SumsToZero m) (i : Nat) (hi : i < m.length) (v : UInt8)
    (hne : v ≠ m[i]) (rest : Bytes) :
    (∃ n, decodePacket (b16encode (m.set i v) ++ 0x0d :: 0x0a :: rest) true true true =
      .ok (some (.invalid (m.set i v) .valueError), n)) ∧
    ∀ (conf : Option UInt8), (∀ c, conf = some c → c ∈ confirmationCodes) →
      ∃ n, decodePacket ([0x5c] ++ b16encode (m.set i v) ++ conf.toList ++ 0x0d :: rest) true true false =
        .ok (some (.invalid (m.set i v) .valueError), n) := by
  have hb := set_not_sums hv hi hne
  exact ⟨⟨_, C32_pci_invalid _ rest hb⟩, fun conf hc => C32_client_invalid true _ rest hb conf hc⟩

theorem b16encode_set_inv : ∀ (m r : Bytes) (k : Nat) (c : UInt8), b16encode r = (b16encode m).set k c →
    k < 2 * m.length → c ≠ (b16encode m)[k]?.getD 0 →
    ∃ v, r = m.set (k / 2) v ∧ some v ≠ m[k / 2]? := by
  intro m
  induction m with
  | nil => intro r k c _ hk; simp at hk
  | cons a as ih =>
    intro r k c h hk hc
    have ha := a.toNat_lt
    cases r with
    | nil =>
      have := congrArg List.length h
      simp [b16encode] at this
    | cons b bs =>
      match k with
      | 0 =>
        simp only [b16encode, List.cons_append, List.nil_append, List.set_cons_zero, List.cons.injEq] at h
        refine ⟨b, ?_, ?_⟩
        · have : bs = as := by
            have := b16decode_b16encode bs; rw [h.2.2, b16decode_b16encode] at this
            injection this with this; exact this.symm
          simp [this]
        · simp only [Nat.zero_div, List.getElem?_cons_zero, ne_eq, Option.some.injEq]
          intro he; subst he
          apply hc; simp [b16encode, ← h.1]
      | 1 =>
        simp only [b16encode, List.cons_append, List.nil_append, List.set_cons_succ, List.set_cons_zero,
          List.cons.injEq] at h
        refine ⟨b, ?_, ?_⟩
        · have : bs = as := by
            have := b16decode_b16encode bs; rw [h.2.2, b16decode_b16encode] at this
            injection this with this; exact this.symm
          simp [this]
        · simp only [Nat.reduceDiv, List.getElem?_cons_zero, ne_eq, Option.some.injEq]
          intro he; subst he
          apply hc; simp [b16encode, ← h.2.1]
      | k + 2 =>
        simp only [b16encode, List.cons_append, List.nil_append, List.set_cons_succ, List.cons.injEq] at h
        have hdiv : (k + 2) / 2 = k / 2 + 1 := by omega
        obtain ⟨v, h1, h2⟩ := ih bs k c h.2.2 (by simp at hk; omega) (by
          simpa [b16encode] using hc)
        refine ⟨v, ?_, ?_⟩
        · have hab : b = a := by
            have hb := b.toNat_lt
            have e1 := hexVal_hexDigit (n := b.toNat / 16) (by omega)
            have e2 := hexVal_hexDigit (n := b.toNat % 16) (by omega)
            have e3 := hexVal_hexDigit (n := a.toNat / 16) (by omega)
            have e4 := hexVal_hexDigit (n := a.toNat % 16) (by omega)
            rw [h.1, e3] at e1; rw [h.2.1, e4] at e2
            injection e1 with e1; injection e2 with e2
            apply UInt8.toNat_inj.1; omega
          rw [hdiv, h1, hab]; rfl
        · rw [hdiv]; simpa using h2

/-- C32 on the text: damaging any single character of a valid line from the PCI
(into any other byte, except that the first one must not become `+`, `!` or a
confirmation code) makes it an `InvalidPacket`. -/
theorem C32_single_character (m : Bytes) (hv : SumsToZero m) (k : Nat) (hk : k < 2 * m.length) (c : UInt8)
    (hne : (b16encode m)[k]? ≠ some c)
    (h0 : k = 0 → c ≠ 0x2b ∧ c ≠ 0x21 ∧ c ∉ confirmationCodes) (rest : Bytes) :
    ∃ x e n, decodePacket ((b16encode m).set k c ++ 0x0d :: 0x0a :: rest) true true true =
      .ok (some (.invalid x e), n) := by
  have hlen := b16encode_length m
  by_cases hx : IsUpperHex c
  · -- another digit: some other byte, wrong checksum
    obtain ⟨r, hr⟩ := b16decode_total ((b16encode m).set k c) (by simp [hlen]) (by
      intro x hx'
      rcases List.mem_or_eq_of_mem_set hx' with h | h
      · exact b16encode_upper m x h
      · rw [h]; exact hx)
    have he := b16encode_of_b16decode _ _ hr
    obtain ⟨v, h1, h2⟩ := b16encode_set_inv m r k c he hk (by
      intro h; apply hne
      rw [List.getElem?_eq_getElem (by omega)] at h ⊢
      simp at h; rw [h])
    have hi : k / 2 < m.length := by omega
    rw [List.getElem?_eq_getElem hi] at h2
    rw [← he, h1]
    exact ⟨_, _, _, C32_pci_invalid _ rest (set_not_sums hv hi (fun h => h2 (by rw [h])))⟩
  · -- not a digit
    generalize hT : (b16encode m).set k c = T
    have hmemT : c ∈ T := by rw [← hT]; exact List.mem_set (by rw [hlen]; exact hk) c
    have hTlen : T.length = 2 * m.length := by rw [← hT]; simp [hlen]
    have hTne : T ≠ [] := by rintro rfl; simp at hmemT
    have hmem : ∀ x ∈ T, IsUpperHex x ∨ x = c := by
      intro x hx'; rw [← hT] at hx'
      rcases List.mem_or_eq_of_mem_set hx' with h | h
      · exact Or.inl (b16encode_upper m x h)
      · exact Or.inr h
    have hhead : ∀ x, T.head? = some x → x ≠ 0x2b ∧ x ≠ 0x21 ∧ x ∉ confirmationCodes := by
      intro x hx'
      have hT0 : T[0]? = some x := by rw [← hx', List.head?_eq_getElem?]
      by_cases hk0 : k = 0
      · have : x = c := by
          rw [← hT, hk0, List.getElem?_set_self (by omega)] at hT0
          injection hT0 with h; exact h.symm
        rw [this]; exact h0 hk0
      · rw [← hT, List.getElem?_set_ne hk0] at hT0
        have := hex_not_special x (b16encode_upper m x (List.mem_of_getElem? hT0))
        exact ⟨this.2.2.2.1, this.2.2.2.2.1, this.2.2.2.2.2.1⟩
    -- the line still ends at its CR LF
    have hfind : ∃ j, find endResponse (T ++ 0x0d :: 0x0a :: rest) = some j ∧ j ≤ T.length ∧ T.length ≤ j := by
      cases hf : find endResponse (T ++ 0x0d :: 0x0a :: rest) with
      | none => exact absurd rfl (find_pair_none hf T rest)
      | some j =>
        obtain ⟨f1, f2, f3⟩ := find_some_spec _ _ _ hf
        refine ⟨j, rfl, ?_, ?_⟩
        · by_cases hlt : T.length < j
          · exfalso
            have := f3 T.length hlt
            simp [endResponse, List.isPrefixOf] at this
          · omega
        · by_cases hlt : j < T.length
          · exfalso
            -- a CR inside T is the damaged character; the next byte is a digit or CR
            rw [List.drop_append_of_le_length (by omega), List.drop_eq_getElem_cons hlt] at f2
            simp only [endResponse, List.cons_append, List.isPrefixOf, Bool.and_eq_true, beq_iff_eq] at f2
            obtain ⟨g1, g2⟩ := f2
            have hjk : j = k := by
              by_cases hjk : j = k
              · exact hjk
              · exfalso
                have : T[j] ∈ b16encode m := by
                  have : T[j] = (b16encode m)[j]'(by omega) := by
                    simp only [← hT]; rw [List.getElem_set_ne (fun h => hjk h.symm)]
                  rw [this]; exact List.getElem_mem _
                exact (hex_not_special _ (b16encode_upper m _ this)).1 g1.symm
            by_cases hlast : j + 1 < T.length
            · rw [List.drop_eq_getElem_cons hlast] at g2
              simp only [List.cons_append, List.isPrefixOf, Bool.and_eq_true, beq_iff_eq] at g2
              have : T[j + 1] ∈ b16encode m := by
                have : T[j + 1] = (b16encode m)[j + 1]'(by omega) := by
                  simp only [← hT]; rw [List.getElem_set_ne (by omega)]
                rw [this]; exact List.getElem_mem _
              exact (hex_not_special _ (b16encode_upper m _ this)).2.1 g2.1.symm
            · rw [List.drop_eq_nil_of_le (by omega)] at g2
              simp [List.isPrefixOf] at g2
          · omega
    obtain ⟨j, hj, hj1, hj2⟩ := hfind
    have hjT : j = T.length := by omega
    subst hjT
    have hframe : framePci (T ++ 0x0d :: 0x0a :: rest) = .line T (T.length + 2) := by
      unfold framePci
      obtain ⟨x, xs, rfl⟩ := List.exists_cons_of_ne_nil hTne
      obtain ⟨a, b, d⟩ := hhead x rfl
      simp only [List.cons_append] at hj ⊢
      rw [if_neg a, if_neg b, if_neg (by simp [minMessageSize]; omega), if_neg d, hj]
      have e : x :: (xs ++ 0x0d :: 0x0a :: rest) = (x :: xs) ++ 0x0d :: 0x0a :: rest := rfl
      simp only [e, List.take_left', endResponse]
      rfl
    have hnothex : ¬ (T.all isHex = true) := by
      intro h; exact hx ((all_isHex_iff T).1 h c hmemT)
    refine ⟨T, .valueError, T.length + 2, ?_⟩
    unfold decodePacket
    rw [if_pos rfl, hframe]
    obtain ⟨x, xs, hxx⟩ := List.exists_cons_of_ne_nil hTne
    simp only [decodeLine, hxx, if_true]
    rw [← hxx]
    simp only [decodeHex, hnothex, Bool.false_eq_true, if_false]

/-- The part of a line before its CR. -/
theorem before_cr {l l' rest rest' : Bytes} (h : l ++ 0x0d :: rest = l' ++ 0x0d :: rest') (h1 : (0x0d : UInt8) ∉ l)
    (h2 : (0x0d : UInt8) ∉ l') : l = l' := by
  induction l generalizing l' with
  | nil =>
    cases l' with
    | nil => rfl
    | cons b l' =>
      simp only [List.nil_append, List.cons_append, List.cons.injEq] at h
      exact absurd (by simp [h.1]) h2
  | cons a l ih =>
    cases l' with
    | nil =>
      simp only [List.nil_append, List.cons_append, List.cons.injEq] at h
      exact absurd (by simp [h.1]) h1
    | cons b l' =>
      simp only [List.cons_append, List.cons.injEq] at h
      rw [h.1, ih h.2 (fun g => h1 (List.mem_cons_of_mem _ g)) (fun g => h2 (List.mem_cons_of_mem _ g))]

/-- C32 on the text, towards the PCI: damaging any single character of a valid command
(into anything but the CR that ends a command) never makes it another one. -/
theorem C32_single_character_command (m : Bytes) (hv : SumsToZero m) (k : Nat) (hk : k < 2 * m.length) (c : UInt8)
    (hne : (b16encode m)[k]? ≠ some c) (hcr : c ≠ 0x0d) (conf : Option UInt8)
    (hconf : ∀ c, conf = some c → c ∈ confirmationCodes) (rest : Bytes) (q : Packet) (n : Nat)
    (h : decodePacket (0x5c :: (b16encode m).set k c ++ conf.toList ++ 0x0d :: rest) true true false = .ok (some q, n)) :
    isMessage q = false := by
  cases hq : isMessage q with
  | false => rfl
  | true =>
    exfalso
    have hlen := b16encode_length m
    have cr_codes : (0x0d : UInt8) ∉ confirmationCodes := by decide
    have nocr : ∀ (co : Option UInt8), (∀ c, co = some c → c ∈ confirmationCodes) → (0x0d : UInt8) ∉ co.toList := by
      intro co hco g
      cases co with
      | none => simp at g
      | some x =>
        simp only [Option.toList_some, List.mem_singleton] at g
        exact cr_codes (g ▸ hco x rfl)
    have nohex : ∀ r : Bytes, (0x0d : UInt8) ∉ b16encode r := fun r g => (hex_not_special _ (b16encode_upper r _ g)).1 rfl
    have noset : (0x0d : UInt8) ∉ (b16encode m).set k c := by
      intro g
      rcases List.mem_or_eq_of_mem_set g with g | g
      · exact nohex m g
      · exact hcr g.symm
    rcases C32_client_only_valid _ q n h hq with h1 | ⟨m', rest', pre, conf', h1, h2, h3, h4⟩
    · simp at h1
    · have e := before_cr (l := 0x5c :: (b16encode m).set k c ++ conf.toList) h1
        (by simp only [List.cons_append, List.mem_cons, List.mem_append, not_or]
            exact ⟨by decide, noset, nocr conf hconf⟩)
        (by simp only [List.mem_append, not_or]
            refine ⟨⟨?_, nohex m'⟩, nocr conf' h3⟩
            rcases h2 with rfl | rfl <;> decide)
      rcases h2 with rfl | rfl
      · -- no backslash: the first character is not one of the command
        have hmem : (0x5c : UInt8) ∈ [] ++ b16encode m' ++ conf'.toList := by rw [← e]; simp
        simp only [List.nil_append, List.mem_append] at hmem
        rcases hmem with g | g
        · exact absurd (b16encode_upper m' _ g) (by decide)
        · cases conf' with
          | none => simp at g
          | some x =>
            simp only [Option.toList_some, List.mem_singleton] at g
            exact absurd (g ▸ h3 x rfl) (by decide)
      · simp only [List.cons_append, List.nil_append, List.cons.injEq, true_and] at e
        have el := congrArg List.length e
        simp only [List.length_append, List.length_set, b16encode_length] at el
        have c1 : conf.toList.length ≤ 1 := by cases conf <;> simp
        have c2 : conf'.toList.length ≤ 1 := by cases conf' <;> simp
        have e2 := (List.append_inj e (by simp only [List.length_set, b16encode_length]; omega)).1
        obtain ⟨v, g1, g2⟩ := b16encode_set_inv m m' k c e2.symm hk (by
          intro g; apply hne
          rw [List.getElem?_eq_getElem (by omega)] at g ⊢
          simp at g; rw [g])
        have hi : k / 2 < m.length := by omega
        rw [List.getElem?_eq_getElem hi] at g2
        rw [g1] at h4
        exact set_not_sums hv hi (fun g => g2 (by rw [g])) h4

/-- A CR in the middle can leave a shorter command that is valid. -/
example : SumsToZero [0x05, 0x38, 0x00, 0x79, 0x01, 0x49, 0x00] ∧
    decodePacket (ascii "\\0538007901490Gg\r") true true false =
      .ok (some (.invalid (ascii "0538007901490G") .valueError), 17) ∧
    decodePacket (ascii "\\0538007901480\rg\r") true true false =
      .error .binasciiError ∧
    decodePacket (ascii "\\053800790149\r0g\r") true true false =
      .ok (some (.pm { app := some 0x38, sals := [.lightOn 1] }), 14) := by
  decide +kernel

example : SumsToZero [0x05, 0xfa, 0x38, 0x00, 0x79, 0x01, 0x4f] ∧
    decodePacket (ascii "05FA380079014F\r\n") true true true =
      .ok (some (.pm { app := some 0x38, sals := [.lightOn 1], src := some 0xfa }), 16) ∧
    decodePacket (ascii "05FA380179014F\r\n") true true true =
      .ok (some (.invalid [0x05, 0xfa, 0x38, 0x01, 0x79, 0x01, 0x4f] .valueError), 16) ∧
    decodePacket (ascii "@001A2001\r") true true false = .ok (some (.cal (.recall 0x20 1)), 13) := by
  decide +kernel

/-! ## C36 -/

/-- Text that `decode_packet` chokes on: nothing but hexadecimal digits, but an
odd number of them, or none, or (with checksums on) a single byte that passes
for its own checksum. -/
def Unreadable (cs strict : Bool) (t : Bytes) : Prop :=
  (∀ c ∈ t, HexDigit c) ∧
  (t.length % 2 = 1 ∨ t = [] ∨ (cs = true ∧ t.length = 2 ∧ (strict = true → t = [0x30, 0x30])))

theorem decodeBody_error_iff (d : Bytes) (c : Nat) (cs fp dm : Bool) (conf : Option UInt8) :
    (∃ e, decodeBody d c cs fp dm conf = .error e) ↔ d = [] := by
  constructor
  · rintro ⟨e, h⟩
    cases d with
    | nil => rfl
    | cons flags data1 =>
      exfalso
      unfold decodeBody at h
      simp only at h
      repeat' split at h
      all_goals cases h
  · rintro rfl; exact ⟨_, rfl⟩

theorem hex_byte (x y : UInt8) (b : UInt8) (h : b16decode [x, y] = .ok [b]) : b = 0 ↔ [x, y] = [0x30, 0x30] := by
  have := b16encode_of_b16decode _ _ h
  constructor
  · rintro rfl; rw [← this]; rfl
  · intro he
    rw [he] at h
    have e : b16decode [0x30, 0x30] = .ok [0] := by decide
    rw [e] at h; injection h with h; injection h with h; exact h.symm

theorem decodeHex_error_iff (t : Bytes) (c : Nat) (cs strict fp dm : Bool) (conf : Option UInt8) :
    (∃ e, decodeHex t c cs strict fp dm conf = .error e) ↔ Unreadable cs strict t := by
  unfold Unreadable decodeHex
  by_cases hx : t.all isHex = true
  · have hh := (all_isHex_iff t).1 hx
    rw [if_pos hx]
    cases hb : b16decode t with
    | error e =>
      simp only [Except.error.injEq, exists_eq', true_iff]
      refine ⟨hh, Or.inl ?_⟩
      by_cases hl : t.length % 2 = 0
      · obtain ⟨r, hr⟩ := b16decode_total t hl hh; rw [hr] at hb; cases hb
      · omega
    | ok raw =>
      have he := b16encode_of_b16decode _ _ hb
      have hl : t.length = 2 * raw.length := by rw [← he, b16encode_length]
      simp only
      unfold decodeRaw
      cases cs with
      | false =>
        simp only [Bool.false_eq_true, if_false, false_and, or_false, decodeBody_error_iff]
        constructor
        · rintro rfl
          exact ⟨hh, Or.inr (List.length_eq_zero_iff.1 (by simpa using hl))⟩
        · rintro ⟨-, h | h⟩
          · omega
          · rw [h] at hl; exact List.length_eq_zero_iff.1 (by simp at hl; omega)
      | true =>
        simp only [if_true, true_and]
        cases raw with
        | nil =>
          have ht : t = [] := List.length_eq_zero_iff.1 (by simpa using hl)
          simp [validateChecksum, ht]
        | cons a as =>
          rw [validateChecksum_eq (by simp)]
          simp only
          cases as with
          | nil =>
            have ha := a.toNat_lt
            have hl2 : t.length = 2 := by simpa using hl
            obtain ⟨x, y, rfl⟩ : ∃ x y, t = [x, y] := by
              match t, hl2 with
              | [x, y], _ => exact ⟨x, y, rfl⟩
            have hz := hex_byte x y a hb
            have hs : sumBytes [a] % 256 = 0 ↔ a = 0 := by
              simp only [sumBytes]
              constructor
              · intro h; apply UInt8.toNat_inj.1; simp; omega
              · rintro rfl; rfl
            by_cases ha0 : a = 0
            · have h1 := hz.1 ha0
              have h2 := hs.2 ha0
              simp only [h2, decide_true, Bool.not_true, Bool.false_and, Bool.false_eq_true, if_false,
                List.dropLast_singleton, decodeBody_error_iff, true_iff]
              exact ⟨hh, Or.inr (Or.inr ⟨rfl, fun _ => h1⟩)⟩
            · have h1 : ¬ ([x, y] = [0x30, 0x30]) := fun h => ha0 (hz.2 h)
              have h2 : ¬ (sumBytes [a] % 256 = 0) := fun h => ha0 (hs.1 h)
              cases strict with
              | true =>
                simp only [h2, decide_false, Bool.not_false, Bool.true_and, if_true, reduceCtorEq, exists_false,
                  false_iff]
                rintro ⟨-, h | h | ⟨-, h⟩⟩
                · simp at h
                · simp at h
                · exact h1 (h trivial)
              | false =>
                simp only [h2, decide_false, Bool.not_false, Bool.and_false, Bool.false_eq_true, if_false,
                  List.dropLast_singleton, decodeBody_error_iff, true_iff]
                exact ⟨hh, Or.inr (Or.inr ⟨rfl, fun h => by cases h⟩)⟩
          | cons b bs =>
            have hl3 : t.length ≠ 2 := by simp at hl; omega
            have hR : ¬ ((∀ c ∈ t, HexDigit c) ∧ (t.length % 2 = 1 ∨ t = [] ∨
                t.length = 2 ∧ (strict = true → t = [0x30, 0x30]))) := by
              rintro ⟨-, h | h | ⟨h, -⟩⟩
              · omega
              · rw [h] at hl; simp at hl
              · exact hl3 h
            simp only [hR, iff_false]
            split
            · simp
            · rw [decodeBody_error_iff]; simp
  · rw [if_neg hx]
    simp only [reduceCtorEq, exists_false, false_iff]
    rintro ⟨h, -⟩
    exact hx ((all_isHex_iff t).2 h)

theorem unreadable_hex {cs strict : Bool} {t : Bytes} (h : Unreadable cs strict t) :
    ∀ c ∈ t, IsUpperHex c := h.1

/-- When `decode_packet` raises on input from the PCI: exactly when the first
line is unreadable text. For every other input C36 holds.

Missing from the full claim: these lines (see `C36_false`). -/
theorem C36_pci_partial (data : Bytes) (cs strict : Bool) :
    (∃ e, decodePacket data cs strict true = .error e) ↔
    ∃ l rest, data = l ++ 0x0d :: 0x0a :: rest ∧ l ≠ [] ∧ Unreadable cs strict l := by
  constructor
  · rintro ⟨e, h⟩
    unfold decodePacket at h
    rw [if_pos rfl] at h
    split at h
    · cases h
    · rename_i l k hf
      obtain ⟨rest, h1, -⟩ := framePci_inv hf
      unfold decodeLine at h
      split at h
      · cases h
      · rw [if_pos rfl] at h
        exact ⟨_, rest, h1, by simp, (decodeHex_error_iff _ _ _ _ _ _ _).1 ⟨e, h⟩⟩
  · rintro ⟨l, rest, rfl, hl, hu⟩
    have hx := unreadable_hex hu
    have hframe := framePci_line l rest (fun h => (hex_not_special _ (hx _ h)).1 rfl) (by
      intro c hc
      have := hex_not_special c (hx c (List.mem_of_mem_head? hc))
      exact ⟨this.2.2.2.1, this.2.2.2.2.1, this.2.2.2.2.2.1⟩)
    obtain ⟨e, he⟩ := (decodeHex_error_iff l (l.length + 2) cs strict true false none).2 hu
    refine ⟨e, ?_⟩
    unfold decodePacket
    rw [if_pos rfl, hframe]
    obtain ⟨x, xs, rfl⟩ := List.exists_cons_of_ne_nil hl
    simp only [decodeLine, if_true]
    exact he

/-- A character that is taken for the confirmation code of a command: one of
g..z, or, if not strict, anything that is not a hexadecimal digit. -/
def EndsCommand (strict : Bool) (c : UInt8) : Prop :=
  if strict then c ∈ confirmationCodes else ¬ HexDigit c

theorem endsCommand_not_hex {strict : Bool} {c : UInt8} (h : EndsCommand strict c) : isHex c ≠ true := by
  cases strict with
  | true => rw [(conf_not_special c h).1]; simp
  | false => intro hx; exact h ((isHex_iff _).1 hx)

theorem decodeConf_error_iff (d : Bytes) (c : Nat) (cs strict dm : Bool) :
    (∃ e, decodeConf d c cs strict dm = .error e) ↔
    ∃ t, ∃ conf : Option UInt8, d = t ++ conf.toList ∧ (∀ c, conf = some c → EndsCommand strict c) ∧
      Unreadable cs strict t := by
  unfold decodeConf
  cases hl : d.getLast? with
  | none =>
    have hd : d = [] := List.getLast?_eq_none_iff.1 hl
    simp only [Except.error.injEq, exists_eq', true_iff]
    exact ⟨[], none, by simp [hd], by simp, by simp [Unreadable]⟩
  | some last =>
    obtain ⟨ys, hys⟩ := List.getLast?_eq_some_iff.1 hl
    subst hys
    simp only
    by_cases hx : isHex last = true
    · rw [if_pos hx, decodeHex_error_iff]
      constructor
      · intro h; exact ⟨_, none, by simp, by simp, h⟩
      · rintro ⟨t, conf, h1, h2, h3⟩
        cases conf with
        | none => simp at h1; rw [h1]; exact h3
        | some x =>
          simp only [Option.toList_some] at h1
          have : last = x := by
            have := congrArg List.getLast? h1; simpa using this
          rw [this] at hx
          exact absurd hx (endsCommand_not_hex (h2 x rfl))
    · rw [if_neg hx]
      by_cases hc : EndsCommand strict last
      · have hcond : ¬ (last ∉ confirmationCodes ∧ strict = true) := by
          rintro ⟨h1, rfl⟩; exact h1 hc
        simp only [hcond, if_false, List.dropLast_concat, decodeHex_error_iff]
        constructor
        · intro h; exact ⟨ys, some last, by simp, by simpa using hc, h⟩
        · rintro ⟨t, conf, h1, h2, h3⟩
          cases conf with
          | none =>
            simp at h1
            exact absurd ((isHex_iff _).2 (unreadable_hex h3 last (by rw [← h1]; simp))) hx
          | some x =>
            simp only [Option.toList_some] at h1
            have : ys = t := (List.append_inj' h1 rfl).1
            rw [this]; exact h3
      · have hcond : last ∉ confirmationCodes ∧ strict = true := by
          cases strict with
          | true => exact ⟨hc, rfl⟩
          | false => exact absurd (fun h => hx ((isHex_iff _).2 h)) hc
        rw [if_pos hcond]
        simp only [reduceCtorEq, exists_false, false_iff]
        rintro ⟨t, conf, h1, h2, h3⟩
        cases conf with
        | none =>
          simp at h1
          exact hx ((isHex_iff _).2 (unreadable_hex h3 last (by rw [← h1]; simp)))
        | some x =>
          simp only [Option.toList_some] at h1
          have : last = x := by
            have := congrArg List.getLast? h1; simpa using this
          exact hc (this ▸ h2 x rfl)

/-- When `decode_packet` raises on input to the PCI: exactly when the first line,
without its prefix and confirmation code, is unreadable text. (The line must not be
one of `~` and `|`, and not be cut short by `?`; in strict mode this cannot happen,
see `C36_client_strict`.)

Missing from the full claim: these lines (see `C36_false`). -/
theorem C36_client_partial (data : Bytes) (cs strict : Bool) :
    (∃ e, decodePacket data cs strict false = .error e) ↔
    ∃ pre t rest, ∃ conf : Option UInt8, data = pre ++ t ++ conf.toList ++ 0x0d :: rest ∧
      pre ++ t ++ conf.toList ∉ [[], [0x7e], [0x7c]] ∧
      (pre = [] ∨ pre = [0x5c] ∨ pre = [0x40]) ∧
      (∀ c, conf = some c → EndsCommand strict c ∧ c ≠ 0x0d ∧ c ≠ 0x3f) ∧
      Unreadable (if pre = [0x40] then false else cs) strict t := by
  constructor
  · rintro ⟨e, h⟩
    unfold decodePacket at h
    rw [if_neg (by simp)] at h
    split at h
    · cases h
    · rename_i l k hf
      obtain ⟨rest, h1, hcr, hq, -⟩ := frameClient_inv hf
      have hl : l ∉ [[], [0x7e], [0x7c]] := by
        intro hm
        simp only [List.mem_cons, List.not_mem_nil, or_false] at hm
        rcases hm with rfl | rfl | rfl
        · unfold decodeLine at h; cases h
        · rw [h1] at hf; simp [frameClient, List.isPrefixOf] at hf
        · rw [h1] at hf
          simp only [List.cons_append, List.nil_append, frameClient] at hf
          rw [if_neg (by simp [List.isPrefixOf]), if_neg (by simp [List.isPrefixOf]),
            if_pos (Or.inl (by simp [List.isPrefixOf, endCommand]))] at hf
          split at hf <;> cases hf
      have hce : ∀ {t : Bytes} {conf : Option UInt8}, (∀ c ∈ t ++ conf.toList, c ∈ l) →
          (∀ c, conf = some c → EndsCommand strict c) → ∀ c, conf = some c → EndsCommand strict c ∧ c ≠ 0x0d ∧ c ≠ 0x3f := by
        intro t conf hm he c hc
        have : c ∈ l := hm c (by simp [hc])
        exact ⟨he c hc, fun h => hcr (h ▸ this), fun h => hq (h ▸ this)⟩
      unfold decodeLine at h
      split at h
      · cases h
      · rename_i x xs
        rw [if_neg (by simp)] at h
        split at h
        · rename_i hx
          obtain ⟨t, conf, e1, e2, e3⟩ := (decodeConf_error_iff _ _ _ _ _).1 ⟨e, h⟩
          exact ⟨[0x40], t, rest, conf, by rw [h1, e1, hx]; simp, by simp, by simp,
            hce (t := t) (by rw [← e1]; simp +contextual) e2, by simpa using e3⟩
        · split at h
          · rename_i hx
            obtain ⟨t, conf, e1, e2, e3⟩ := (decodeConf_error_iff _ _ _ _ _).1 ⟨e, h⟩
            exact ⟨[0x5c], t, rest, conf, by rw [h1, e1, hx]; simp, by simp, by simp,
              hce (t := t) (by rw [← e1]; simp +contextual) e2, by simpa using e3⟩
          · obtain ⟨t, conf, e1, e2, e3⟩ := (decodeConf_error_iff _ _ _ _ _).1 ⟨e, h⟩
            refine ⟨[], t, rest, conf, by rw [h1, e1]; simp, ?_, by simp,
              hce (t := t) (by rw [← e1]; simp) e2, by simpa using e3⟩
            rw [List.nil_append, ← e1]; exact hl
  · rintro ⟨pre, t, rest, conf, rfl, hne, hpre, hc, hu⟩
    have hx := unreadable_hex hu
    simp only [List.mem_cons, List.not_mem_nil, or_false, not_or] at hne
    obtain ⟨hne, hne1, hne2⟩ := hne
    -- characters of the line
    have hmem : ∀ c ∈ pre ++ t ++ conf.toList, c ≠ 0x0d ∧ c ≠ 0x3f := by
      intro c hcm
      simp only [List.mem_append] at hcm
      rcases hcm with (h | h) | h
      · rcases hpre with rfl | rfl | rfl
        · simp at h
        · simp at h; subst h; decide
        · simp at h; subst h; decide
      · have := hex_not_special c (hx c h)
        exact ⟨this.1, this.2.2.1⟩
      · cases conf with
        | none => simp at h
        | some y => simp at h; subst h; exact (hc c rfl).2
    have hhead : (pre ++ t ++ conf.toList).head? ≠ some 0x7e ∧ (pre ++ t ++ conf.toList).head? ≠ some 0x7c := by
      rcases hpre with rfl | rfl | rfl
      · cases t with
        | cons y ys =>
          have := hex_not_special y (hx y (by simp))
          exact ⟨fun h => this.2.2.2.2.2.2.1 (by simpa using h), fun h => this.2.2.2.2.2.2.2.2.1 (by simpa using h)⟩
        | nil =>
          cases conf with
          | none => simp at hne
          | some y =>
            simp only [List.nil_append, Option.toList_some, List.head?_cons] at hne1 hne2 ⊢
            exact ⟨fun h => hne1 (by injection h with h; rw [h]), fun h => hne2 (by injection h with h; rw [h])⟩
      · simp
      · simp
    have hnull : [0x6e, 0x75, 0x6c, 0x6c].isPrefixOf (pre ++ t ++ conf.toList ++ 0x0d :: rest) = false := by
      have n_ne : ∀ (x : UInt8) (l : Bytes), x ≠ 0x6e →
          [0x6e, 0x75, 0x6c, 0x6c].isPrefixOf (x :: l) = false := by
        intro x l h; simp [List.isPrefixOf, Ne.symm h]
      rcases hpre with rfl | rfl | rfl
      · cases t with
        | cons y ys =>
          exact n_ne y _ (hex_not_special y (hx y (by simp))).2.2.2.2.2.2.2.1
        | nil =>
          cases conf with
          | none => simp at hne
          | some y => simp [List.isPrefixOf]
      · exact n_ne _ _ (by decide)
      · exact n_ne _ _ (by decide)
    have hframe := frameClient_line' (pre ++ t ++ conf.toList) rest (fun h => (hmem _ h).1 rfl)
      (fun h => (hmem _ h).2 rfl)
      (not_prefix_of_head (by decide) hhead.1) hnull hhead.2
    unfold decodePacket
    rw [if_neg (by simp), hframe]
    simp only
    rcases hpre with rfl | rfl | rfl
    · simp only [List.nil_append] at hne ⊢
      obtain ⟨y, ys, hyy⟩ := List.exists_cons_of_ne_nil hne
      unfold decodeLine
      rw [hyy]
      simp only
      rw [if_neg (by simp)]
      by_cases h40 : y = 0x40
      · rw [if_pos h40]
        -- the line is `@`
        have hys : ys = [] := by
          cases t with
          | nil => cases conf <;> simp at hyy; exact hyy.2
          | cons z zs =>
            simp only [List.cons_append, List.cons.injEq] at hyy
            exact absurd (hyy.1.trans h40) (hex_not_special z (hx z (by simp))).2.2.2.2.2.2.2.2.2.1
        rw [hys]
        exact ⟨_, rfl⟩
      · rw [if_neg h40]
        by_cases h5c : y = 0x5c
        · rw [if_pos h5c]
          have hys : ys = [] := by
            cases t with
            | nil => cases conf <;> simp at hyy; exact hyy.2
            | cons z zs =>
              simp only [List.cons_append, List.cons.injEq] at hyy
              exact absurd (hyy.1.trans h5c) (hex_not_special z (hx z (by simp))).2.2.2.2.2.2.2.2.2.2
          rw [hys]
          exact ⟨_, rfl⟩
        · rw [if_neg h5c, ← hyy]
          exact (decodeConf_error_iff _ _ cs strict true).2 ⟨t, conf, rfl, fun c h => (hc c h).1, by simpa using hu⟩
    · obtain ⟨e, he⟩ := (decodeConf_error_iff (t ++ conf.toList)
        (([0x5c] ++ t ++ conf.toList).length + 1) cs strict false).2
          ⟨t, conf, rfl, fun c h => (hc c h).1, by simpa using hu⟩
      refine ⟨e, ?_⟩
      rw [← he]
      simp [decodeLine]
    · obtain ⟨e, he⟩ := (decodeConf_error_iff (t ++ conf.toList)
        (([0x40] ++ t ++ conf.toList).length + 1) false strict true).2
          ⟨t, conf, rfl, fun c h => (hc c h).1, by simpa using hu⟩
      refine ⟨e, ?_⟩
      rw [← he]
      simp [decodeLine]

/-- The same in strict mode, as used by the protocol classes. -/
theorem C36_client_strict (data : Bytes) (cs : Bool) :
    (∃ e, decodePacket data cs true false = .error e) ↔
    ∃ pre t rest, ∃ conf : Option UInt8, data = pre ++ t ++ conf.toList ++ 0x0d :: rest ∧
      pre ++ t ++ conf.toList ≠ [] ∧
      (pre = [] ∨ pre = [0x5c] ∨ pre = [0x40]) ∧ (∀ c, conf = some c → c ∈ confirmationCodes) ∧
      Unreadable (if pre = [0x40] then false else cs) true t := by
  rw [C36_client_partial]
  constructor
  · rintro ⟨pre, t, rest, conf, h1, h2, h3, h4, h5⟩
    exact ⟨pre, t, rest, conf, h1, fun h => h2 (by rw [h]; simp), h3, fun c h => (h4 c h).1, h5⟩
  · rintro ⟨pre, t, rest, conf, h1, h2, h3, h4, h5⟩
    have key : ∀ c : UInt8, c ∈ confirmationCodes → c ≠ 0x0d ∧ c ≠ 0x3f ∧ c ≠ 0x7e ∧ c ≠ 0x7c := by
      apply forall_byte; decide +kernel
    refine ⟨pre, t, rest, conf, h1, ?_, h3, fun c h => ⟨h4 c h, (key c (h4 c h)).1, (key c (h4 c h)).2.1⟩, h5⟩
    have hno : ∀ y : UInt8, y = 0x7e ∨ y = 0x7c → pre ++ t ++ conf.toList ≠ [y] := by
      intro y hy he
      have hm : y ∈ pre ++ t ++ conf.toList := by rw [he]; simp
      simp only [List.mem_append] at hm
      rcases hm with (h | h) | h
      · rcases h3 with rfl | rfl | rfl
        · simp at h
        · simp at h; subst h; revert hy; decide
        · simp at h; subst h; revert hy; decide
      · have := hex_not_special y (unreadable_hex h5 y h)
        rcases hy with rfl | rfl
        · exact this.2.2.2.2.2.2.1 rfl
        · exact this.2.2.2.2.2.2.2.2.1 rfl
      · have hc : y ∈ confirmationCodes := h4 y (by cases conf <;> simp_all)
        have := key y hc
        rcases hy with rfl | rfl
        · exact this.2.2.1 rfl
        · exact this.2.2.2 rfl
    simp only [List.mem_cons, List.not_mem_nil, or_false, not_or]
    exact ⟨h2, hno _ (Or.inl rfl), hno _ (Or.inr rfl)⟩

/-- In the lenient mode any character ends a command. -/
example : decodePacket (ascii "\\053%\r") true false false = .error .binasciiError ∧
    decodePacket (ascii "\\053%\r") true true false = .ok (some (.invalid (ascii "053%") .valueError), 6) ∧
    decodePacket (ascii "~\r") true false false = .ok (some .reset, 1) ∧
    decodePacket (ascii "%\r") true false false = .error .indexError := by decide +kernel

/-- C36 is false in both directions. -/
theorem C36_false :
    decodePacket (ascii "050\r\n") true true true = .error .binasciiError ∧
    decodePacket (ascii "00\r\n") true true true = .error .indexError ∧
    decodePacket (ascii "\\053\r") true true false = .error .binasciiError ∧
    decodePacket (ascii "@\r") true true false = .error .indexError ∧
    ¬ (∀ (data : Bytes) (fp : Bool), ∃ r, decodePacket data true true fp = .ok r) := by
  refine ⟨by decide +kernel, by decide +kernel, by decide +kernel, by decide +kernel, ?_⟩
  intro h
  obtain ⟨r, hr⟩ := h (ascii "050\r\n") true
  have : decodePacket (ascii "050\r\n") true true true = .error .binasciiError := by decide +kernel
  rw [this] at hr; cases hr

/-! ## C37 -/

/-- C37: a confirmation for a valid code, from construction over the wire and
back. -/
theorem C37_confirmation (code : UInt8) (hc : code ∈ confirmationCodes) (success : Bool) (rest : Bytes)
    (cs strict : Bool) :
    ∃ p w, mkConfirmation [code] success = .ok p ∧ p.encodePacket = .ok w ∧
      w = [code, if success then 0x2e else 0x23] ∧
      decodePacket (w ++ rest) cs strict true = .ok (some p, 2) ∧
      p = .confirmation [code] success := by
  refine ⟨.confirmation [code] success, _, by simp [mkConfirmation, hc], rfl, rfl, ?_, rfl⟩
  have hs := conf_not_special code hc
  unfold decodePacket
  simp only [if_true, framePci, List.cons_append, List.nil_append]
  rw [if_neg hs.2.2.2.2.1, if_neg hs.2.2.2.2.2, if_neg (by simp [minMessageSize]), if_pos hc]
  cases success <;> rfl

/-- C37: of a longer text only the first character is the code, and without any the
confirmation has no code. -/
theorem C37_first_character (code : UInt8) (hc : code ∈ confirmationCodes) (more : Bytes) (success : Bool) :
    mkConfirmation (code :: more) success = .ok (.confirmation [code] success) ∧
      mkConfirmation [] success = .ok (.confirmation [] success) := by
  simp [mkConfirmation, hc]

/-- C37: any other code is refused. -/
theorem C37_invalid_code (code : UInt8) (hc : code ∉ confirmationCodes) (more : Bytes) (success : Bool) :
    mkConfirmation (code :: more) success = .error .valueError := by
  simp [mkConfirmation, hc]

/-- C37: the valid codes are the letters `g` to `z`. -/
theorem C37_codes (c : UInt8) : c ∈ confirmationCodes ↔ 0x67 ≤ c.toNat ∧ c.toNat ≤ 0x7a := by
  revert c; apply forall_byte; decide +kernel

example : decodePacket (ascii "g.05") true true true = .ok (some (.confirmation (ascii "g") true), 2) ∧
    decodePacket (ascii "z#") true true true = .ok (some (.confirmation (ascii "z") false), 2) := by
  decide +kernel

/-! ## C38 -/

/-- C38: cancel. `pre` is what was typed before the `?`; it must not begin with
a message that is complete in itself. -/
theorem C38_cancel (pre rest : Bytes) (cs strict : Bool) (h1 : (0x0d : UInt8) ∉ pre)
    (h2 : (0x3f : UInt8) ∉ pre) (h3 : pre.head? ≠ some 0x7e)
    (h4 : ¬ ([0x6e, 0x75, 0x6c, 0x6c] <+: pre)) (hcr : (0x0d : UInt8) ∈ rest) :
    decodePacket (pre ++ 0x3f :: rest) cs strict false = .ok (none, pre.length + 1) := by
  have hf : find [0x3f] (pre ++ 0x3f :: rest) = some pre.length := find_single_append _ _ _ h2
  have hcr' : (0x0d : UInt8) ∉ pre ++ [0x3f] := by simp [h1]
  unfold decodePacket
  rw [if_neg (by simp), frameClient_eq (by simp)]
  have p1 : [0x7e].isPrefixOf (pre ++ 0x3f :: rest) = false := not_prefix_of_head (by decide) h3
  have p2 : [0x6e, 0x75, 0x6c, 0x6c].isPrefixOf (pre ++ 0x3f :: rest) = false := by
    rw [Bool.eq_false_iff]
    intro hp
    rw [List.isPrefixOf_iff_prefix] at hp
    rcases Nat.lt_or_ge pre.length 4 with hl | hl
    · -- the `?` would have to be one of the four letters
      have hq : pre ++ [0x3f] <+: pre ++ 0x3f :: rest := ⟨rest, by simp⟩
      have : pre ++ [0x3f] <+: [0x6e, 0x75, 0x6c, 0x6c] :=
        List.prefix_of_prefix_length_le hq hp (by simp; omega)
      have : (0x3f : UInt8) ∈ ([0x6e, 0x75, 0x6c, 0x6c] : Bytes) := this.subset (by simp)
      revert this; decide
    · exact h4 (List.prefix_of_prefix_length_le hp (List.prefix_append _ _) (by simpa using hl))
  have p3 : ∀ q : Bytes, (0x0d : UInt8) ∈ q → (0x3f : UInt8) ∉ q →
      q.isPrefixOf (pre ++ 0x3f :: rest) = false := by
    intro q hq1 hq2
    rw [Bool.eq_false_iff]
    intro hp
    rw [List.isPrefixOf_iff_prefix] at hp
    have hq : pre ++ [0x3f] <+: pre ++ 0x3f :: rest := ⟨rest, by simp⟩
    rcases Nat.lt_or_ge q.length (pre ++ [0x3f]).length with hl | hl
    · exact hcr' ((List.prefix_of_prefix_length_le hp hq (by omega)).subset hq1)
    · exact hq2 ((List.prefix_of_prefix_length_le hq hp (by omega)).subset (by simp))
  rw [p1, p2, p3 _ (by decide) (by decide), p3 _ (by decide) (by decide), hf]
  simp only [Bool.false_eq_true, if_false, or_self]
  cases hn : find endCommand (pre ++ 0x3f :: rest) with
  | none => exact absurd (by simp [hcr]) ((find_single_none _ _).1 hn)
  | some nlp =>
    have : pre ++ 0x3f :: rest = (pre ++ [0x3f]) ++ rest := by simp
    rw [this] at hn
    have := find_single_lt hcr' hn
    simp only [List.length_append, List.length_cons, List.length_nil] at this
    simp only
    rw [if_pos (by omega)]

/-- C38: `null` is dropped, four bytes. -/
theorem C38_null (rest : Bytes) (cs strict : Bool) :
    decodePacket (ascii "null" ++ rest) cs strict false = .ok (none, 4) := by
  have : ascii "null" = [0x6e, 0x75, 0x6c, 0x6c] := by decide +kernel
  rw [this]
  unfold decodePacket
  rw [if_neg (by simp), frameClient_eq (by simp)]
  simp [List.isPrefixOf]

/-- C38: `~` is a reset, one byte. -/
theorem C38_reset (rest : Bytes) (cs strict : Bool) :
    decodePacket (0x7e :: rest) cs strict false = .ok (some .reset, 1) := by
  unfold decodePacket
  rw [if_neg (by simp), frameClient_eq (by simp)]
  simp [List.isPrefixOf]

/-- C38: `|` CR and `||` CR select smart mode. -/
theorem C38_smart (rest : Bytes) (cs strict : Bool) :
    decodePacket (ascii "|\r" ++ rest) cs strict false = .ok (some .smartConnect, 2) ∧
    decodePacket (ascii "||\r" ++ rest) cs strict false = .ok (some .smartConnect, 3) := by
  have e1 : ascii "|\r" = [0x7c, 0x0d] := by decide +kernel
  have e2 : ascii "||\r" = [0x7c, 0x7c, 0x0d] := by decide +kernel
  rw [e1, e2]
  unfold decodePacket
  constructor
  · rw [if_neg (by simp), frameClient_eq (by simp)]
    simp [List.isPrefixOf, endCommand, find]
  · rw [if_neg (by simp), frameClient_eq (by simp)]
    simp [List.isPrefixOf, endCommand, find]

example : decodePacket (ascii "\\0538?\\05380079014A\r") true true false = .ok (none, 6) := by decide +kernel

end CBus.Props
