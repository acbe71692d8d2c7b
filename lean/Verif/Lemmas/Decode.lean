import Verif.Lemmas.Sal
import Verif.Model.Decode
import Verif.Props.Packet

/-! Helper lemmas about the decoder, layer by layer. -/

namespace CBus
open Spec Props

/-! ### Text -/

theorem isHex_iff (c : UInt8) : isHex c = true ↔ IsUpperHex c := by
  revert c; apply forall_byte; decide +kernel

theorem all_isHex_iff (t : Bytes) : t.all isHex = true ↔ ∀ c ∈ t, IsUpperHex c := by
  rw [List.all_eq_true]
  exact forall_congr' fun c => by rw [isHex_iff]

theorem b16encode_all_isHex (m : Bytes) : (b16encode m).all isHex = true :=
  (all_isHex_iff _).2 (b16encode_upper m)

theorem hex_not_special (c : UInt8) (h : IsUpperHex c) :
    c ≠ 0x0d ∧ c ≠ 0x0a ∧ c ≠ 0x3f ∧ c ≠ 0x2b ∧ c ≠ 0x21 ∧ c ∉ confirmationCodes ∧ c ≠ 0x7e ∧
    c ≠ 0x6e ∧ c ≠ 0x7c ∧ c ≠ 0x40 ∧ c ≠ 0x5c := by
  revert c; apply forall_byte; decide +kernel

theorem conf_not_special (c : UInt8) (h : c ∈ confirmationCodes) :
    isHex c = false ∧ c ≠ 0x0d ∧ c ≠ 0x3f ∧ c ≠ 0x0a ∧ c ≠ 0x2b ∧ c ≠ 0x21 := by
  revert c; apply forall_byte; decide +kernel

/-- The checksummed form, if checksums are on. -/
def withSum (cs : Bool) (m : Bytes) : Bytes := if cs then addChecksum m else m

theorem decodeHex_encode (m : Bytes) (consumed : Nat) (cs strict fp dm : Bool) (conf : Option UInt8) :
    decodeHex (b16encode m) consumed cs strict fp dm conf = decodeRaw m consumed cs strict fp dm conf := by
  unfold decodeHex
  rw [if_pos (b16encode_all_isHex m), b16decode_b16encode]

theorem decodeRaw_withSum (m : Bytes) (consumed : Nat) (cs strict fp dm : Bool) (conf : Option UInt8) :
    decodeRaw (withSum cs m) consumed cs strict fp dm conf = decodeBody m consumed cs fp dm conf := by
  unfold decodeRaw withSum
  cases cs
  · simp
  · simp [validateChecksum_addChecksum]

theorem withSum_ne_nil {cs : Bool} {m : Bytes} (h : m ≠ []) : withSum cs m ≠ [] := by
  unfold withSum; cases cs <;> simp [addChecksum, h]

theorem decodeConf_encode (m : Bytes) (conf : Option UInt8) (hc : ∀ c, conf = some c → c ∈ confirmationCodes)
    (hne : m ≠ [] ∨ conf ≠ none) (consumed : Nat) (cs strict dm : Bool) :
    decodeConf (b16encode m ++ conf.toList) consumed cs strict dm =
      decodeRaw m consumed cs strict false dm conf := by
  cases conf with
  | some c =>
    have hc' := hc c rfl
    obtain ⟨h1, -⟩ := conf_not_special c hc'
    unfold decodeConf
    simp only [Option.toList_some, List.getLast?_concat, h1, hc', not_true, false_and, if_false,
      List.dropLast_concat, Bool.false_eq_true]
    exact decodeHex_encode _ _ _ _ _ _ _
  | none =>
    have hm : m ≠ [] := by rcases hne with h | h; exact h; exact absurd rfl h
    have hl : b16encode m ≠ [] := by
      cases m with
      | nil => exact absurd rfl hm
      | cons a as => simp [b16encode]
    unfold decodeConf
    simp only [Option.toList_none, List.append_nil]
    rw [List.getLast?_eq_some_getLast hl]
    have hx := (isHex_iff _).2 (b16encode_upper m _ (List.getLast_mem hl))
    simp only [hx, if_true]
    exact decodeHex_encode _ _ _ _ _ _ _

/-! ### Framing -/

theorem find_single_lt {b : UInt8} {d rest : Bytes} (h : b ∉ d) {n : Nat}
    (hf : find [b] (d ++ rest) = some n) : d.length ≤ n := by
  obtain ⟨h1, h2, -⟩ := find_some_spec _ _ _ hf
  by_cases hn : n < d.length
  · exfalso
    rw [List.drop_append_of_le_length (by omega), List.drop_eq_getElem_cons hn] at h2
    simp only [List.cons_append, List.isPrefixOf, Bool.and_eq_true, beq_iff_eq] at h2
    exact h (h2.1 ▸ List.getElem_mem hn)
  · omega

/-- A command line: the text up to the first CR is extracted, unless a special
form applies. -/
theorem frameClient_line' (l rest : Bytes) (hcr : (0x0d : UInt8) ∉ l) (hq : (0x3f : UInt8) ∉ l)
    (p1 : [0x7e].isPrefixOf (l ++ 0x0d :: rest) = false)
    (p2 : [0x6e, 0x75, 0x6c, 0x6c].isPrefixOf (l ++ 0x0d :: rest) = false)
    (h3 : l.head? ≠ some 0x7c) :
    frameClient (l ++ 0x0d :: rest) = .line l (l.length + 1) := by
  unfold frameClient
  have hf : find endCommand (l ++ 0x0d :: rest) = some l.length := find_single_append _ _ _ hcr
  have hpre : ∀ (c : UInt8) (p : Bytes), c ≠ 0x0d → l.head? ≠ some c →
      (c :: p).isPrefixOf (l ++ 0x0d :: rest) = false := by
    intro c p hc hne
    cases l with
    | nil => simp [List.isPrefixOf, hc]
    | cons x xs =>
      have : ¬ c = x := by intro h; apply hne; simp [h]
      simp [List.isPrefixOf, this]
  have p3 : ([0x7c] ++ endCommand).isPrefixOf (l ++ 0x0d :: rest) = false :=
    hpre 0x7c [0x0d] (by decide) h3
  have p4 : ([0x7c, 0x7c] ++ endCommand).isPrefixOf (l ++ 0x0d :: rest) = false :=
    hpre 0x7c [0x7c, 0x0d] (by decide) h3
  have e : l ++ 0x0d :: rest ≠ [] := by simp
  generalize hdat : l ++ 0x0d :: rest = data at *
  cases data with
  | nil => exact absurd rfl e
  | cons x xs =>
  simp only
  rw [p1, p2, p3, p4]
  simp only [Bool.false_eq_true, if_false, or_self]
  rw [hf]
  cases hqf : find [0x3f] (x :: xs) with
  | none => simp [endCommand, ← hdat]
  | some qp =>
    have := find_single_lt (rest := 0x0d :: rest) hq (hdat ▸ hqf)
    simp only
    rw [if_neg (by omega)]
    simp [endCommand, ← hdat]

theorem not_prefix_of_head {l rest : Bytes} {c x : UInt8} {p : Bytes} (hc : c ≠ x) (hne : l.head? ≠ some c) :
    (c :: p).isPrefixOf (l ++ x :: rest) = false := by
  cases l with
  | nil => simp [List.isPrefixOf, hc]
  | cons y ys =>
    have : ¬ c = y := by intro h; apply hne; simp [h]
    simp [List.isPrefixOf, this]

theorem frameClient_line (l rest : Bytes) (hcr : (0x0d : UInt8) ∉ l) (hq : (0x3f : UInt8) ∉ l)
    (h1 : l.head? ≠ some 0x7e) (h2 : l.head? ≠ some 0x6e) (h3 : l.head? ≠ some 0x7c) :
    frameClient (l ++ 0x0d :: rest) = .line l (l.length + 1) :=
  frameClient_line' l rest hcr hq (not_prefix_of_head (by decide) h1) (not_prefix_of_head (by decide) h2) h3

theorem find_single_split {b : UInt8} {d : Bytes} {n : Nat} (h : find [b] d = some n) :
    d = d.take n ++ b :: d.drop (n + 1) ∧ b ∉ d.take n ∧ n < d.length := by
  obtain ⟨h1, h2, h3⟩ := find_some_spec _ _ _ h
  simp only [List.length_cons, List.length_nil] at h1
  have hlt : n < d.length := by omega
  refine ⟨?_, ?_, hlt⟩
  · rw [List.drop_eq_getElem_cons hlt] at h2
    simp only [List.isPrefixOf, Bool.and_eq_true, beq_iff_eq] at h2
    have := List.take_append_drop n d
    rw [List.drop_eq_getElem_cons hlt, ← h2.1] at this
    exact this.symm
  · intro hm
    obtain ⟨i, hi, he⟩ := List.mem_iff_getElem.1 hm
    have hi' : i < n := by simp at hi; omega
    have := h3 i hi'
    rw [List.drop_eq_getElem_cons (by omega)] at this
    rw [List.getElem_take] at he
    simp [List.isPrefixOf, he] at this

theorem find_pair_split {a b : UInt8} {d : Bytes} {n : Nat} (h : find [a, b] d = some n) :
    d = d.take n ++ a :: b :: d.drop (n + 2) ∧ n + 2 ≤ d.length := by
  obtain ⟨h1, h2, -⟩ := find_some_spec _ _ _ h
  simp only [List.length_cons, List.length_nil] at h1
  refine ⟨?_, by omega⟩
  rw [List.drop_eq_getElem_cons (by omega), List.drop_eq_getElem_cons (by omega)] at h2
  simp only [List.isPrefixOf, Bool.and_eq_true, beq_iff_eq] at h2
  have := List.take_append_drop n d
  rw [List.drop_eq_getElem_cons (by omega), List.drop_eq_getElem_cons (by omega), ← h2.1, ← h2.2.1] at this
  exact this.symm

/-- What an extracted command line is. -/
theorem frameClient_inv {data l : Bytes} {n : Nat} (h : frameClient data = .line l n) :
    ∃ rest, data = l ++ 0x0d :: rest ∧ (0x0d : UInt8) ∉ l ∧ (0x3f : UInt8) ∉ l ∧ n = l.length + 1 := by
  unfold frameClient at h
  have key : ∀ nlp, find endCommand data = some nlp → (0x3f : UInt8) ∉ data.take nlp →
      Framed.line (data.take nlp) (nlp + endCommand.length) = .line l n →
      ∃ rest, data = l ++ 0x0d :: rest ∧ (0x0d : UInt8) ∉ l ∧ (0x3f : UInt8) ∉ l ∧ n = l.length + 1 := by
    intro nlp hf hq he
    injection he with he1 he2
    obtain ⟨h1, h2, h3⟩ := find_single_split hf
    subst he1 he2
    refine ⟨_, h1, h2, hq, ?_⟩
    simp [endCommand]; omega
  split at h
  · cases h
  · repeat' split at h
    all_goals first
      | cases h; done
      | (rename_i nlp qp hf hq hlt
         refine key nlp hf ?_ h
         obtain ⟨q1, q2, q3⟩ := find_single_split hq
         intro hm
         apply q2
         have : data.take nlp = (data.take qp).take nlp := by
           rw [List.take_take, Nat.min_eq_left (by omega)]
         rw [this] at hm
         exact List.mem_of_mem_take hm)
      | (rename_i nlp hf hq
         refine key nlp hf ?_ h
         intro hm
         exact (find_single_none _ _).1 hq (List.mem_of_mem_take hm))

/-- What a line extracted from PCI output is. -/
theorem framePci_inv {data l : Bytes} {n : Nat} (h : framePci data = .line l n) :
    ∃ rest, data = l ++ 0x0d :: 0x0a :: rest ∧ n = l.length + 2 := by
  unfold framePci at h
  split at h
  · cases h
  · repeat' split at h
    all_goals first
      | cases h; done
      | (rename_i e hf
         injection h with h1 h2
         obtain ⟨q1, q2⟩ := find_pair_split hf
         subst h1 h2
         refine ⟨_, q1, ?_⟩
         rw [List.length_take]
         simp only [endResponse, List.length_cons, List.length_nil] at q2 ⊢
         omega)

/-- A line from the PCI: the text up to the first CR LF. -/
theorem framePci_line (l rest : Bytes) (hcr : (0x0d : UInt8) ∉ l)
    (hh : ∀ c, l.head? = some c → c ≠ 0x2b ∧ c ≠ 0x21 ∧ c ∉ confirmationCodes) :
    framePci (l ++ 0x0d :: 0x0a :: rest) = .line l (l.length + 2) := by
  have hf : find endResponse (l ++ 0x0d :: 0x0a :: rest) = some l.length := find_pair_append _ _ _ _ hcr
  unfold framePci
  cases l with
  | nil =>
    simp only [List.nil_append] at hf ⊢
    have : ¬ ((0x0d : UInt8) ∈ confirmationCodes) := by decide
    rw [if_neg (by decide), if_neg (by decide), if_neg (by simp [minMessageSize]), if_neg this, hf]
    rfl
  | cons x xs =>
    obtain ⟨a, b, c⟩ := hh x rfl
    simp only [List.cons_append] at hf ⊢
    rw [if_neg a, if_neg b, if_neg (by simp [minMessageSize]; omega), if_neg c, hf]
    have e : x :: (xs ++ 0x0d :: 0x0a :: rest) = (x :: xs) ++ 0x0d :: 0x0a :: rest := rfl
    simp only [e, List.take_left', endResponse]
    rfl

/-! ### Whole lines -/

theorem b16encode_head {m : Bytes} {c : UInt8} (h : (b16encode m).head? = some c) : IsUpperHex c :=
  b16encode_upper m c (List.mem_of_mem_head? h)

/-- A line from the PCI carrying the bytes `m`. -/
theorem decodePacket_pci_raw (m rest : Bytes) (hm : m ≠ []) (cs strict : Bool) :
    decodePacket (b16encode m ++ 0x0d :: 0x0a :: rest) cs strict true =
      decodeRaw m (2 * m.length + 2) cs strict true false none := by
  have hh : ∀ c, (b16encode m).head? = some c → c ≠ 0x2b ∧ c ≠ 0x21 ∧ c ∉ confirmationCodes := by
    intro c hc
    have := hex_not_special c (b16encode_head hc)
    exact ⟨this.2.2.2.1, this.2.2.2.2.1, this.2.2.2.2.2.1⟩
  have hcr : (0x0d : UInt8) ∉ b16encode m := fun h =>
    (hex_not_special _ (b16encode_upper _ _ h)).1 rfl
  unfold decodePacket
  rw [if_pos rfl, framePci_line _ _ hcr hh]
  simp only
  have hne : b16encode m ≠ [] := by
    cases m with
    | nil => exact absurd rfl hm
    | cons a as => simp [b16encode]
  unfold decodeLine
  cases hb : b16encode m with
  | nil => exact absurd hb hne
  | cons a as =>
    simp only [if_true]
    rw [← hb, decodeHex_encode, b16encode_length]

/-- A line from the PCI carrying `m` with its checksum. -/
theorem decodePacket_pci (m rest : Bytes) (hm : m ≠ []) (cs strict : Bool) :
    decodePacket (b16encode (withSum cs m) ++ 0x0d :: 0x0a :: rest) cs strict true =
      decodeBody m (2 * (withSum cs m).length + 2) cs true false none := by
  rw [decodePacket_pci_raw _ _ (withSum_ne_nil hm), decodeRaw_withSum]

/-- An empty line from the PCI. -/
theorem decodePacket_pci_nil (rest : Bytes) (cs strict : Bool) :
    decodePacket (0x0d :: 0x0a :: rest) cs strict true = .ok (none, 2) := by
  have := framePci_line [] rest (by simp) (by simp)
  simp only [List.nil_append] at this
  simp [decodePacket, this, decodeLine]

/-- How a command to the PCI may be written: with a backslash, or without
(basic mode). -/
inductive CmdPrefix | backslash | none
  deriving DecidableEq, Repr

def CmdPrefix.text : CmdPrefix → Bytes
  | .backslash => [0x5c]
  | .none => []

/-- Without the backslash the decoder is prepared for a bare CAL. -/
def CmdPrefix.dm : CmdPrefix → Bool
  | .backslash => false
  | .none => true

theorem line_chars (pre : CmdPrefix) (w : Bytes) (hw : ∀ c ∈ w, IsUpperHex c) (conf : Option UInt8)
    (hc : ∀ c, conf = some c → c ∈ confirmationCodes) (c : UInt8)
    (h : c ∈ pre.text ++ w ++ conf.toList) : c ≠ 0x0d ∧ c ≠ 0x3f := by
  simp only [List.mem_append] at h
  rcases h with (h | h) | h
  · cases pre
    · simp [CmdPrefix.text] at h; subst h; decide
    · simp [CmdPrefix.text] at h
  · have := hex_not_special c (hw c h); exact ⟨this.1, this.2.2.1⟩
  · cases conf with
    | none => simp at h
    | some x =>
      simp at h; subst h
      have := conf_not_special c (hc c rfl); exact ⟨this.2.1, this.2.2.1⟩

/-- A command line carrying `m`. -/
theorem decodePacket_client_raw (pre : CmdPrefix) (m rest : Bytes) (hm : m ≠ []) (conf : Option UInt8)
    (hc : ∀ c, conf = some c → c ∈ confirmationCodes) (cs strict : Bool) :
    decodePacket (pre.text ++ b16encode m ++ conf.toList ++ 0x0d :: rest) cs strict false =
      decodeRaw m (pre.text.length + 2 * m.length + conf.toList.length + 1)
        cs strict false pre.dm conf := by
  have hl := line_chars pre (b16encode m) (b16encode_upper _) conf hc
  have hb : ∃ a as, b16encode m = a :: as ∧ IsUpperHex a := by
    cases m with
    | nil => exact absurd rfl hm
    | cons a as =>
      refine ⟨_, _, rfl, ?_⟩
      exact hexDigit_upper (by have := a.toNat_lt; omega)
  obtain ⟨a, as, hb, ha⟩ := hb
  have hn := hex_not_special a ha
  have hhead : ∀ x, (pre.text ++ b16encode m ++ conf.toList).head? = some x → x = 0x5c ∨ x = a := by
    intro x hx
    rw [hb] at hx
    cases pre <;> simp [CmdPrefix.text] at hx
    · exact Or.inl hx.symm
    · exact Or.inr hx.symm
  have hd : ∀ x, x ≠ 0x5c → x ≠ a → (pre.text ++ b16encode m ++ conf.toList).head? ≠ some x := by
    intro x h1 h2 h
    rcases hhead x h with h | h
    · exact h1 h
    · exact h2 h
  unfold decodePacket
  rw [if_neg (by simp), frameClient_line _ _ (fun h => (hl _ h).1 rfl) (fun h => (hl _ h).2 rfl)
    (hd _ (by decide) hn.2.2.2.2.2.2.1.symm) (hd _ (by decide) hn.2.2.2.2.2.2.2.1.symm)
    (hd _ (by decide) hn.2.2.2.2.2.2.2.2.1.symm)]
  simp only
  have hlen : (pre.text ++ b16encode m ++ conf.toList).length + 1 =
      pre.text.length + 2 * m.length + conf.toList.length + 1 := by
    simp [b16encode_length]; omega
  rw [hlen]
  cases pre with
  | backslash =>
    simp only [CmdPrefix.text, List.cons_append, List.nil_append, decodeLine]
    rw [if_neg (by simp), if_neg (by decide), if_pos trivial]
    rw [decodeConf_encode _ _ hc (Or.inl hm)]
    rfl
  | none =>
    have e : CmdPrefix.none.text ++ b16encode m ++ conf.toList = a :: (as ++ conf.toList) := by
      simp [CmdPrefix.text, hb]
    rw [e]
    simp only [decodeLine]
    rw [if_neg (by simp), if_neg hn.2.2.2.2.2.2.2.2.2.1, if_neg hn.2.2.2.2.2.2.2.2.2.2]
    have e2 : a :: (as ++ conf.toList) = b16encode m ++ conf.toList := by rw [hb]; rfl
    rw [e2, decodeConf_encode _ _ hc (Or.inl hm)]
    rfl

theorem decodePacket_client (pre : CmdPrefix) (m rest : Bytes) (hm : m ≠ []) (conf : Option UInt8)
    (hc : ∀ c, conf = some c → c ∈ confirmationCodes) (cs strict : Bool) :
    decodePacket (pre.text ++ b16encode (withSum cs m) ++ conf.toList ++ 0x0d :: rest) cs strict false =
      decodeBody m (pre.text.length + 2 * (withSum cs m).length + conf.toList.length + 1)
        cs false pre.dm conf := by
  rw [decodePacket_client_raw pre _ rest (withSum_ne_nil hm) conf hc, decodeRaw_withSum]

/-! ### Bodies -/

theorem flags_decode (dat : DAT) (dp : Bool) (prio : Prio) :
    DAT.ofCode (flagsByte dat dp prio &&& 0x07) = .ok dat ∧
    (flagsByte dat dp prio &&& 0x20 == 0x20) = dp ∧
    Prio.ofBits (flagsByte dat dp prio >>> 6 &&& 0x03) = prio := by
  cases dat <;> cases dp <;> cases prio <;> decide

theorem decodeBody_client (dat : DAT) (dp : Bool) (prio : Prio) (payload : Bytes) (consumed : Nat)
    (cs dm : Bool) (conf : Option UInt8) :
    decodeBody (headerBytes dat dp prio none ++ payload) consumed cs false dm conf =
      match dispatch dat dp dm payload cs prio with
      | .error e => .ok (some (.invalid payload e), consumed)
      | .ok (p, n) => .ok (some (attach false conf none p), consumed + n) := by
  obtain ⟨h1, h2, h3⟩ := flags_decode dat dp prio
  simp only [headerBytes, List.cons_append, List.nil_append, decodeBody, h1, h2, h3, Bool.false_eq_true,
    if_false]
  rfl

theorem decodeBody_pci (dat : DAT) (dp : Bool) (prio : Prio) (src : UInt8) (payload : Bytes)
    (consumed : Nat) (cs : Bool) :
    decodeBody (flagsByte dat dp prio :: src :: payload) consumed cs true false none =
      match dispatch dat dp false payload cs prio with
      | .error e => .ok (some (.invalid payload e), consumed)
      | .ok (p, n) => .ok (some (attach true none (some src) p), consumed + n) := by
  obtain ⟨h1, h2, h3⟩ := flags_decode dat dp prio
  simp only [decodeBody, h1, h2, h3, if_true]
  rfl

/-! ### Payloads -/

theorem appendAll_ok (a : Int) : ∀ (l : List SAL) (p : PM), p.app = some a →
    (∀ s ∈ l, s.application = a) → p.appendAll l = .ok { p with sals := p.sals ++ l } := by
  intro l
  induction l with
  | nil => intro p _ _; simp [PM.appendAll]
  | cons s ss ih =>
    intro p hp h
    have hs : s.application = a := h s (by simp)
    rw [PM.appendAll]
    simp only [PM.appendSal, hp, hs, ne_eq, not_true, if_false]
    rw [ih _ rfl (fun x hx => h x (by simp [hx]))]
    simp

theorem mkPM_ok (cs : Bool) (prio : Prio) (a : Int) (l : List SAL) (h : ∀ s ∈ l, s.application = a) :
    mkPM cs prio (some a) l = .ok { checksum := cs, prio := prio, app := some a, sals := l } := by
  unfold mkPM
  rw [appendAll_ok a l _ rfl h]
  rfl

theorem expectedHandler_isApplication (a : UInt8) (h : AppHandler) (he : expectedHandler a.toNat = some h) :
    mkApplication a = .ok a.toNat := by
  have key : ∀ a : UInt8, (expectedHandler a.toNat).isSome = true → mkApplication a = .ok a.toNat := by
    apply forall_byte; decide +kernel
  exact key a (by rw [he]; rfl)

theorem expectedHandler_of_application (s : SAL) : expectedHandler s.application = some (handlerOf s) := by
  cases s <;> rfl

/-- Decoding a point-to-multipoint payload whose SAL data is understood. -/
theorem decodePM_ok (a : UInt8) (h : AppHandler) (he : expectedHandler a.toNat = some h) (b : Bytes)
    (l : List SAL) (hd : h.decodeSals b = .ok l) (cs : Bool) (prio : Prio) :
    decodePM (a :: 0 :: b) cs prio = mkPM cs prio (some a.toNat) l := by
  have hg : getApplication a.toNat = .ok h := by rw [C68_get_application, he]
  simp only [decodePM, byteAt, List.getElem?_cons_zero, List.getElem?_cons_succ, bind, Except.bind,
    expectedHandler_isApplication a h he, ne_eq, not_true, if_false, hg, List.drop_succ_cons,
    List.drop_zero, hd]

theorem expectedHandler_byte {a : Int} {h : AppHandler} (he : expectedHandler a = some h) :
    0 ≤ a ∧ a < 256 := by
  unfold expectedHandler at he
  repeat' split at he
  all_goals first | omega | cases he

theorem salsFor_encode {a : Int} {h : AppHandler} (he : expectedHandler a = some h) {sals : List SAL}
    (hs : SalsFor a sals) :
    ∃ b, encodeSals sals = .ok b ∧ h.decodeSals b = .ok (sals.map received) := by
  obtain ⟨b, h1, h2⟩ := decodeSals_encodeSals h sals (by
    intro s hm
    obtain ⟨h1, h2⟩ := hs s hm
    refine ⟨h1, ?_⟩
    have := expectedHandler_of_application s
    rw [h2, he] at this
    injection this with this; exact this.symm) []
  refine ⟨b, h1, ?_⟩
  rw [decodeSals_nil] at h2
  simpa [pappend] using h2

/-- Decoding the payload of an encoded point-to-multipoint packet. -/
theorem decodePM_encode {a : Int} {h : AppHandler} (he : expectedHandler a = some h) {sals : List SAL}
    (hs : SalsFor a sals) :
    ∃ (ab : UInt8) (b : Bytes), mkByte a = .ok ab ∧ encodeSals sals = .ok b ∧
      ∀ cs prio, decodePM (ab :: 0 :: b) cs prio =
        .ok { checksum := cs, prio := prio, app := some a, sals := sals.map received } := by
  obtain ⟨b, h1, h2⟩ := salsFor_encode he hs
  have hr := expectedHandler_byte he
  obtain ⟨ab, e1, e2⟩ := mkByte_isByte (x := a) hr
  refine ⟨ab, b, e1, h1, ?_⟩
  intro cs prio
  rw [decodePM_ok ab h (by rw [e2]; exact he) b _ h2, e2, mkPM_ok]
  intro s hm
  obtain ⟨s', hs', rfl⟩ := List.mem_map.1 hm
  rw [received_application]
  exact (hs s' hs').2

end CBus
