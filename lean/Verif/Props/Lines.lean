import Verif.Props.Server
import Verif.Props.Stuck

/-! # C33, C42: what happens to each line, without exceptions

The theorems of `Props/Decoder.lean` and `Props/Buffer.lean` cover the cases in
which the claims hold. Here every line is covered. -/

namespace CBus.Props
open CBus CBus.Spec

variable {σ ω : Type}

/-! ## C33 -/

/-- The number of bytes of a CAL on the wire. -/
def calSize : CAL → Nat
  | .identify _ => 2
  | .recall _ _ => 3
  | .reply _ d => 2 + d.length
  | .extended _ _ _ (.binary s) => 4 + s.length / 4
  | .extended _ _ _ (.level s) => 4 + 2 * s.length

theorem levelDecodeGo_length : ∀ (b : Bytes), (levelDecodeGo b).length = b.length / 2
  | [] => rfl
  | [_] => by simp [levelDecodeGo]
  | _ :: _ :: rest => by
    have := levelDecodeGo_length rest
    simp only [levelDecodeGo, List.length_cons, this]
    omega

theorem decodeCal_size {data : Bytes} {c : CAL} {n : Nat} (h : decodeCal data = .ok (c, n)) : n = calSize c := by
  cases data with
  | nil => simp [decodeCal, byteAt, bind, Except.bind] at h
  | cons cmd rest =>
    unfold decodeCal at h
    simp only [byteAt, List.getElem?_cons_zero, bind, Except.bind, pure, Except.pure, throw, throwThe,
      MonadExceptOf.throw] at h
    split at h
    · split at h
      · cases h
      · rename_i hl
        simp only [List.take_succ_cons, List.drop_succ_cons, List.drop_zero] at h
        split at h
        · cases h
        · rename_i v hv
          injection h with h; injection h with h1 h2
          subst h1 h2
          unfold replyDecode at hv
          simp only [byteAt, bind, Except.bind, pure, Except.pure] at hv
          split at hv
          · cases hv
          · rename_i p hp
            injection hv with hv
            subst hv
            simp only [List.length_cons] at hl
            simp only [calSize, List.length_drop, List.length_take]
            have hlen : 0 < (List.take (cmd &&& 31).toNat rest).length := by
              cases hr : List.take (cmd &&& 31).toNat rest with
              | nil => rw [hr] at hp; simp at hp
              | cons a b => simp
            simp only [List.length_take] at hlen
            omega
    · split at h
      · cases h
      · split at h
        · split at h
          · cases h
          · rename_i hl
            simp only [List.take_succ_cons, List.drop_succ_cons, List.drop_zero] at h
            split at h
            · cases h
            · rename_i v hv
              injection h with h; injection h with h1 h2
              subst h1 h2
              simp only [List.length_cons] at hl
              have hlt : (List.take (cmd &&& 31).toNat rest).length = (cmd &&& 31).toNat := by
                rw [List.length_take]; omega
              generalize List.take (cmd &&& 31).toNat rest = d at hv hlt
              unfold extendedDecode at hv
              match d, hv, hlt with
              | [], hv, _ => simp [byteAt, bind, Except.bind] at hv
              | [_], hv, _ => simp [byteAt, bind, Except.bind] at hv
              | [_, _], hv, _ => simp [byteAt, bind, Except.bind] at hv
              | a :: b :: c :: payload, hv, hlt =>
                simp only [byteAt, List.getElem?_cons_zero, List.getElem?_cons_succ, bind, Except.bind, pure,
                  Except.pure, throw, throwThe, MonadExceptOf.throw, List.drop_succ_cons, List.drop_zero] at hv
                simp only [List.length_cons] at hlt
                split at hv
                · injection hv with hv
                  subst hv
                  simp only [calSize, binaryDecode_length]
                  omega
                · split at hv
                  · split at hv
                    · cases hv
                    · rename_i s hs
                      injection hv with hv
                      subst hv
                      unfold levelDecode at hs
                      split at hs
                      · cases hs
                      · rename_i h2
                        injection hs with hs
                        subst hs
                        simp only [calSize, levelDecodeGo_length]
                        omega
                  · cases hv
        · split at h
          · repeat' split at h
            all_goals first
              | cases h; done
              | (injection h with h; injection h with h1 h2; subst h1 h2; rfl)
          · split at h
            · repeat' split at h
              all_goals first
                | cases h; done
                | (injection h with h; injection h with h1 h2; subst h1 h2; rfl)
            · cases h

theorem decodeBody_cal {d : Bytes} {c : Nat} {cs fp dm : Bool} {conf : Option UInt8} {x : CAL} {n : Nat}
    (h : decodeBody d c cs fp dm conf = .ok (some (.cal x), n)) : n = c + calSize x := by
  have disp : ∀ dat dp data prio k, dispatch dat dp dm data cs prio = .ok (.cal x, k) → k = calSize x := by
    intro dat dp data prio k h
    unfold dispatch at h
    simp only [bind, Except.bind, pure, Except.pure] at h
    split at h
    · split at h <;> cases h
    · split at h
      · split at h
        · cases h
        · rename_i v hv
          injection h with h; injection h with h1 h2
          injection h1 with h1
          subst h1 h2
          exact decodeCal_size (c := v.1) (n := v.2) hv
      · split at h
        all_goals first
          | cases h; done
          | (split at h <;> cases h)
  have att : ∀ fp conf src p, attach fp conf src p = .cal x → p = .cal x := by
    intro fp conf src p h
    unfold attach at h
    repeat' split at h
    all_goals first
      | cases h; done
      | exact h
  unfold decodeBody at h
  split at h
  · cases h
  · split at h
    · cases h
    · simp only at h
      split at h
      · split at h
        · cases h
        · split at h
          · cases h
          · rename_i p k hd
            injection h with h; injection h with h1 h2
            injection h1 with h1
            rw [att _ _ _ _ h1] at hd
            rw [← h2, disp _ _ _ _ _ hd]
      · split at h
        · cases h
        · rename_i p k hd
          injection h with h; injection h with h1 h2
          injection h1 with h1
          rw [att _ _ _ _ h1] at hd
          rw [← h2, disp _ _ _ _ _ hd]

theorem decodeHex_cal {d : Bytes} {c : Nat} {cs strict fp dm : Bool} {conf : Option UInt8} {x : CAL} {n : Nat}
    (h : decodeHex d c cs strict fp dm conf = .ok (some (.cal x), n)) : n = c + calSize x := by
  unfold decodeHex at h
  split at h
  · split at h
    · cases h
    · unfold decodeRaw at h
      repeat' split at h
      all_goals first
        | cases h; done
        | exact decodeBody_cal h
  · cases h

theorem decodeLine_cal {l : Bytes} {c : Nat} {cs strict fp : Bool} {x : CAL} {n : Nat}
    (h : decodeLine l c cs strict fp = .ok (some (.cal x), n)) : n = c + calSize x := by
  have conf : ∀ {d : Bytes} {cs strict dm : Bool}, decodeConf d c cs strict dm = .ok (some (.cal x), n) →
      n = c + calSize x := by
    intro d cs strict dm h
    unfold decodeConf at h
    repeat' split at h
    all_goals first
      | cases h; done
      | exact decodeHex_cal h
  unfold decodeLine at h
  repeat' split at h
  all_goals first
    | cases h; done
    | exact decodeHex_cal h
    | exact conf h

/-- C33, the exception: the position behind a bare CAL is the end of its line plus
the size of the CAL, which counts its bytes twice. -/
theorem C33_cal (data : Bytes) (cs strict fp : Bool) (x : CAL) (n : Nat)
    (h : decodePacket data cs strict fp = .ok (some (.cal x), n)) :
    fp = false ∧ ∃ l rest, data = l ++ 0x0d :: rest ∧ (0x0d : UInt8) ∉ l ∧ n = l.length + 1 + calSize x := by
  unfold decodePacket at h
  cases fp with
  | true =>
    exfalso
    rw [if_pos rfl] at h
    split at h
    · rename_i p k hf
      injection h with h; injection h with h1 h2; subst h1 h2
      unfold framePci at hf
      repeat' split at hf
      all_goals cases hf
    · rename_i l k hf
      obtain ⟨-, h2⟩ := decodeLine_result h
      rcases h2 with h2 | ⟨h2, -⟩
      · have := decodeLine_cal h
        have : 0 < calSize x := by
          cases x with
          | extended a b c r => cases r <;> simp only [calSize] <;> omega
          | _ => simp only [calSize] <;> omega
        omega
      · cases h2
  | false =>
    refine ⟨rfl, ?_⟩
    rw [if_neg (by simp)] at h
    split at h
    · exfalso
      rename_i p k hf
      injection h with h; injection h with h1 h2; subst h1 h2
      unfold frameClient at hf
      repeat' split at hf
      all_goals cases hf
    · rename_i l k hf
      obtain ⟨rest, h1, h2, -, h3⟩ := frameClient_inv hf
      exact ⟨l, rest, h1, h2, by rw [decodeLine_cal h, h3]⟩

example : decodePacket (ascii "@001A2001\r") true true false = .ok (some (.cal (.recall 0x20 1)), 10 + 3) ∧
    calSize (.recall 0x20 1) = 3 ∧
    decodePacket (ascii "@0083000102\r") true true false = .ok (some (.cal (.reply 0 [1, 2])), 12 + 4) ∧
    calSize (.reply 0 [1, 2]) = 4 := by decide +kernel

/-! ## C42 -/

/-- What a reception does after one frame: the frame's own effects, then, unless its
handler raised, the rest of the buffer. -/
def followedBy (m : σ × List ω × Py Unit) (whole : Bytes) (k : σ → Conn σ × List ω × Py Unit) :
    Conn σ × List ω × Py Unit :=
  match m with
  | (s, o, .error e) => (⟨whole, s⟩, o, .error e)
  | (s, o, .ok ()) => ((k s).1, o ++ (k s).2.1, (k s).2.2)

/-- Handling what `decode_packet` returned. -/
def onDecoded (onPacket : Packet → Proc σ ω Unit) : Option Packet → Proc σ ω Unit
  | some q => onPacket q
  | none => pure ()

theorem handleData_decoded {emu : Bool} {checksum : σ → Bool} {echo : Bytes → Proc σ ω Unit}
    {onPacket : Packet → Proc σ ω Unit} {b : Bytes} {s : σ} {p : Option Packet} {n : Nat}
    (hd : decodePacket b (checksum s) true (!emu) = .ok (p, n)) (hn : 0 < n) :
    handleData emu checksum echo onPacket b s =
      Proc.andThen (if emu then echo (b.take n) else pure ())
        (fun _ => Proc.andThen (onDecoded onPacket p) fun _ => pure (n : Int)) s := by
  unfold handleData
  simp only [hd, hn, and_true]
  cases p <;> rfl

theorem process_decoded {emu : Bool} {checksum : σ → Bool} {echo : Bytes → Proc σ ω Unit}
    {onPacket : Packet → Proc σ ω Unit} {b : Bytes} {s : σ} {p : Option Packet} {n : Nat} (hb : b ≠ [])
    (hd : decodePacket b (checksum s) true (!emu) = .ok (p, n)) (hn : 0 < n) :
    processBuffer (handleData emu checksum echo onPacket) b s =
      followedBy (Proc.andThen (if emu then echo (b.take n) else pure ()) (fun _ => onDecoded onPacket p) s) b
        (processBuffer (handleData emu checksum echo onPacket) (b.drop n)) := by
  have hh := handleData_decoded (echo := echo) (onPacket := onPacket) hd hn
  generalize (if emu then echo (b.take n) else pure () : Proc σ ω Unit) = E at hh ⊢
  generalize onDecoded onPacket p = A at hh ⊢
  rcases hE : E s with ⟨s1, o1, r1⟩
  cases r1 with
  | error e =>
    rw [andThen_error hE] at hh
    rw [andThen_error hE, processBuffer_error hb hh]
    rfl
  | ok u =>
    rw [andThen_ok hE] at hh
    rw [andThen_ok hE]
    rcases hA : A s1 with ⟨s2, o2, r2⟩
    cases r2 with
    | error e =>
      rw [andThen_error hA] at hh
      rw [processBuffer_error hb hh]
      rfl
    | ok v =>
      rw [andThen_ok hA] at hh
      rw [processBuffer_step (r := (n : Int)) hb hh (by omega)]
      simp [followedBy, pure]

/-- Some text from the PCI up to the next CR LF, which is not preceded by a
notification or a confirmation. -/
def PciLine (l : Bytes) : Prop :=
  ¬ [0x0d, 0x0a] <:+: l ∧ ∀ c, l.head? = some c → c ≠ 0x2b ∧ c ≠ 0x21 ∧ c ∉ confirmationCodes

theorem find_pair_first (a b : UInt8) (hab : a ≠ b) : ∀ (d c : Bytes), ¬ [a, b] <:+: d →
    find [a, b] (d ++ a :: b :: c) = some d.length := by
  intro d
  induction d with
  | nil => intro c _; simp [find, List.isPrefixOf]
  | cons x xs ih =>
    intro c h
    have hx : ¬ [a, b] <:+: xs := fun hi => h (hi.trans (List.suffix_cons _ _).isInfix)
    simp only [List.cons_append, find, ih c hx]
    rw [if_neg]
    · simp
    · intro hp
      simp only [List.isPrefixOf, Bool.and_eq_true, beq_iff_eq] at hp
      obtain ⟨h1, h2⟩ := hp
      cases xs with
      | nil =>
        simp only [List.nil_append, List.isPrefixOf, Bool.and_true, beq_iff_eq] at h2
        exact hab h2.symm
      | cons y ys =>
        simp only [List.cons_append, List.isPrefixOf, Bool.and_true, beq_iff_eq] at h2
        subst h1 h2
        exact h ⟨[], ys, rfl⟩

theorem framePci_line_any {l : Bytes} (hl : PciLine l) (rest : Bytes) :
    framePci (l ++ 0x0d :: 0x0a :: rest) = .line l (l.length + 2) := by
  by_cases hcr : (0x0d : UInt8) ∉ l
  · exact framePci_line l rest hcr hl.2
  · have hf : find endResponse (l ++ 0x0d :: 0x0a :: rest) = some l.length :=
      find_pair_first _ _ (by decide) _ _ hl.1
    cases l with
    | nil => simp at hcr
    | cons x xs =>
      obtain ⟨a, b, d⟩ := hl.2 x rfl
      unfold framePci
      simp only [List.cons_append] at hf ⊢
      rw [if_neg a, if_neg b, if_neg (by simp [minMessageSize]; omega), if_neg d, hf]
      have e : x :: (xs ++ 0x0d :: 0x0a :: rest) = (x :: xs) ++ 0x0d :: 0x0a :: rest := rfl
      simp only [e, List.take_left', endResponse]
      rfl

theorem decodePacket_pci_line {l : Bytes} (hl : PciLine l) (rest : Bytes) :
    decodePacket (l ++ 0x0d :: 0x0a :: rest) true true true = decodeLine l (l.length + 2) true true true := by
  unfold decodePacket
  rw [if_pos rfl, framePci_line_any hl]

/-- C42 for a client, every line, readable or not. A line of readable text is taken
out of the buffer, and what is behind it is handled as if it had come alone
afterwards; the packet that it stands for does not depend on what is behind it.
Otherwise nothing happens, ever (`C42_blocked`). -/
theorem C42_client_line {π : Type} (hook : Event → Proc Client (Eff π) Unit) (l : Bytes) (hl : PciLine l) :
    (l ≠ [] ∧ Unreadable true true l →
      ∃ e, ∀ rest s, processBuffer (Client.handle hook) (l ++ 0x0d :: 0x0a :: rest) s =
        (⟨l ++ 0x0d :: 0x0a :: rest, s⟩, [], .error e)) ∧
    (¬ (l ≠ [] ∧ Unreadable true true l) →
      ∃ p, decodePacket (l ++ [0x0d, 0x0a]) true true true = .ok (p, l.length + 2) ∧
        ∀ rest s, processBuffer (Client.handle hook) (l ++ 0x0d :: 0x0a :: rest) s =
          followedBy (onDecoded (Client.onPacket hook) p s)
            (l ++ 0x0d :: 0x0a :: rest) (processBuffer (Client.handle hook) rest)) := by
  constructor
  · rintro ⟨hne, hu⟩
    obtain ⟨x, xs, rfl⟩ := List.exists_cons_of_ne_nil hne
    obtain ⟨e, he⟩ := (decodeHex_error_iff (x :: xs) ((x :: xs).length + 2) true true true false none).2 hu
    refine ⟨e, fun rest s => ?_⟩
    have hd : decodePacket (x :: xs ++ 0x0d :: 0x0a :: rest) true true true = .error e := by
      rw [decodePacket_pci_line hl]; exact he
    refine processBuffer_error (by simp) ?_
    unfold Client.handle handleData
    simp only [Bool.not_false, hd]
  · intro hu
    have hok : ∃ p, decodeLine l (l.length + 2) true true true = .ok (p, l.length + 2) := by
      cases h : decodeLine l (l.length + 2) true true true with
      | error e =>
        exfalso
        apply hu
        unfold decodeLine at h
        split at h
        · cases h
        · exact ⟨by simp, (decodeHex_error_iff _ _ _ _ _ _ _).1 ⟨e, h⟩⟩
      | ok r =>
        obtain ⟨p, n⟩ := r
        obtain ⟨-, h2⟩ := decodeLine_result h
        rcases h2 with h2 | ⟨h2, -⟩
        · exact ⟨p, by rw [h2]⟩
        · cases h2
    obtain ⟨p, hp⟩ := hok
    refine ⟨p, by rw [decodePacket_pci_line hl]; exact hp, fun rest s => ?_⟩
    have hd : decodePacket (l ++ 0x0d :: 0x0a :: rest) true true true = .ok (p, l.length + 2) := by
      rw [decodePacket_pci_line hl]; exact hp
    unfold Client.handle
    rw [process_decoded (checksum := fun _ => true) (by simp) hd (by omega)]
    have hdrop : (l ++ 0x0d :: 0x0a :: rest).drop (l.length + 2) = rest := by
      rw [List.drop_append, List.drop_eq_nil_of_le (by omega), Nat.add_sub_cancel_left]; rfl
    rw [hdrop]
    rfl

/-- The claim of C42 for a client whose handlers do not raise: all lines but the
unreadable ones are followed by what is behind them. -/
theorem C42_client_goes_on {π : Type} (hook : Event → Proc Client (Eff π) Unit)
    (hk : ∀ p s, (Client.onPacket hook p s).2.2 = .ok ()) (l : Bytes) (hl : PciLine l)
    (hu : ¬ (l ≠ [] ∧ Unreadable true true l)) (s : Client) :
    ∃ s' o, ∀ rest, processBuffer (Client.handle hook) (l ++ 0x0d :: 0x0a :: rest) s =
      ((processBuffer (Client.handle hook) rest s').1, o ++ (processBuffer (Client.handle hook) rest s').2.1,
       (processBuffer (Client.handle hook) rest s').2.2) := by
  obtain ⟨p, -, h⟩ := (C42_client_line hook l hl).2 hu
  cases p with
  | none => exact ⟨s, [], fun rest => by rw [h]; rfl⟩
  | some q =>
    have := hk q s
    rcases hq : Client.onPacket hook q s with ⟨s', o, r⟩
    rw [hq] at this
    simp only at this
    subst this
    refine ⟨s', o, fun rest => ?_⟩
    rw [h]
    simp only [onDecoded, hq, followedBy]

/-- A carriage return within the line, a wrong checksum, an unknown application and an
empty line, then an event; and an unreadable line. -/
example : PciLine (ascii "05\r053800790144") ∧ PciLine (ascii "050538007901FF") ∧
    ¬ Unreadable true true (ascii "05\r053800790144") ∧ Unreadable true true (ascii "05053") ∧
    (Client.dataReceived (π := Unit) (Client.baseHook fun _ => ⟨⟨2020, 1, 1⟩, ⟨0, 0, 0, 0⟩⟩)
      (ascii "05\r053800790144\r\n050538007901FF\r\n05050700790175\r\n\r\n05053800790144\r\n") ⟨[], {}⟩).2 =
      ([.event (.lightingOn (some 5) 1)], .ok ()) := by
  refine ⟨⟨?_, ?_⟩, ⟨?_, ?_⟩, ?_, ⟨?_, ?_⟩, by decide +kernel⟩
  · decide +kernel
  · intro c hc; injection hc with hc; subst hc; decide
  · decide +kernel
  · intro c hc; injection hc with hc; subst hc; decide
  · intro h; exact absurd (h.1 0x0d (by decide +kernel)) (by unfold HexDigit; decide)
  · intro c hc
    have : c = 0x30 ∨ c = 0x35 ∨ c = 0x33 := by
      revert hc; revert c; apply forall_byte; decide +kernel
    rcases this with rfl | rfl | rfl <;> (unfold HexDigit; decide)
  · left; decide +kernel

/-- Some text to the PCI up to the next CR that is none of the special commands
(cancel, reset, `null`, smart connect shortcut). -/
def ClientLine (l : Bytes) : Prop :=
  (0x0d : UInt8) ∉ l ∧ (0x3f : UInt8) ∉ l ∧ l.head? ≠ some 0x7e ∧ ¬ [0x6e, 0x75, 0x6c, 0x6c] <+: l ∧
  l ≠ [0x7c] ∧ l ≠ [0x7c, 0x7c]

theorem prefix_cr {q l rest : Bytes} (hq : (0x0d : UInt8) ∉ q) (h : q <+: l ++ 0x0d :: rest) : q <+: l := by
  rcases Nat.lt_or_ge l.length q.length with hlt | hge
  · exfalso
    apply hq
    obtain ⟨t, ht⟩ := h
    have h1 : (q ++ t)[l.length]? = some 0x0d := by rw [ht]; simp
    rw [List.getElem?_append_left hlt] at h1
    exact List.mem_of_getElem? h1
  · obtain ⟨t, ht⟩ := h
    refine ⟨l.drop q.length, ?_⟩
    have h1 : q = l.take q.length := by
      have := congrArg (List.take q.length) ht
      rw [List.take_left', List.take_append_of_le_length hge] at this
      · exact this
      · rfl
    exact (congrArg (· ++ l.drop q.length) h1).trans (List.take_append_drop _ _)

theorem prefix_line {q l rest : Bytes} (hq : (0x0d : UInt8) ∉ q) (hl : (0x0d : UInt8) ∉ l)
    (h : q ++ [0x0d] <+: l ++ 0x0d :: rest) : l = q := by
  have h1 : q <+: l := prefix_cr hq ((List.prefix_append q [0x0d]).trans h)
  obtain ⟨t, rfl⟩ := h1
  rw [List.append_assoc, List.prefix_append_right_inj] at h
  cases t with
  | nil => simp
  | cons a as =>
    obtain ⟨u, hu⟩ := h
    simp only [List.cons_append, List.nil_append, List.cons.injEq] at hu
    exact absurd (by rw [hu.1]; simp) hl

theorem frameClient_line_any {l : Bytes} (hl : ClientLine l) (rest : Bytes) :
    frameClient (l ++ 0x0d :: rest) = .line l (l.length + 1) := by
  obtain ⟨hcr, hq, h1, h2, h3, h4⟩ := hl
  have hf : find endCommand (l ++ 0x0d :: rest) = some l.length := find_single_append _ _ _ hcr
  have p1 : [0x7e].isPrefixOf (l ++ 0x0d :: rest) = false := not_prefix_of_head (by decide) h1
  have p2 : [0x6e, 0x75, 0x6c, 0x6c].isPrefixOf (l ++ 0x0d :: rest) = false := by
    cases h : [0x6e, 0x75, 0x6c, 0x6c].isPrefixOf (l ++ 0x0d :: rest) with
    | false => rfl
    | true => exact absurd (prefix_cr (by decide) (List.isPrefixOf_iff_prefix.1 h)) h2
  have p3 : ¬ (([0x7c] ++ endCommand).isPrefixOf (l ++ 0x0d :: rest) = true ∨
      ([0x7c, 0x7c] ++ endCommand).isPrefixOf (l ++ 0x0d :: rest) = true) := by
    rintro (h | h)
    · exact h3 (prefix_line (by decide) hcr (List.isPrefixOf_iff_prefix.1 h))
    · exact h4 (prefix_line (by decide) hcr (List.isPrefixOf_iff_prefix.1 h))
  rw [frameClient_eq (by simp)]
  rw [if_neg (by rw [p1]; simp), if_neg (by rw [p2]; simp), if_neg p3, hf]
  cases hqf : find [0x3f] (l ++ 0x0d :: rest) with
  | none => simp [endCommand]
  | some qp =>
    have := find_single_lt hq hqf
    simp only
    rw [if_neg (by omega)]
    simp [endCommand]

/-- A command that `decode_packet` chokes on. -/
def UnreadableCommand (cs : Bool) (l : Bytes) : Prop :=
  l ≠ [] ∧ ∃ pre t, ∃ conf : Option UInt8, l = pre ++ t ++ conf.toList ∧
    (pre = [] ∨ pre = [0x5c] ∨ pre = [0x40]) ∧ (∀ c, conf = some c → c ∈ confirmationCodes) ∧
    Unreadable (if pre = [0x40] then false else cs) true t

/-- The bytes behind its line that are lost with a packet. -/
def swallowed : Option Packet → Nat
  | some (.cal x) => calSize x
  | _ => 0

theorem decodePacket_client_line {l : Bytes} (hl : ClientLine l) (rest : Bytes) (cs : Bool) :
    decodePacket (l ++ 0x0d :: rest) cs true false = decodeLine l (l.length + 1) cs true false := by
  unfold decodePacket
  rw [if_neg (by simp), frameClient_line_any hl]

theorem line_unique {a b x y : Bytes} (ha : (0x0d : UInt8) ∉ a) (hb : (0x0d : UInt8) ∉ b)
    (h : a ++ 0x0d :: x = b ++ 0x0d :: y) : a = b := by
  have h1 : a ++ [0x0d] <+: b ++ 0x0d :: y := ⟨x, by rw [← h]; simp⟩
  exact (prefix_line ha hb h1).symm

theorem unreadable_command_iff {l : Bytes} (hl : ClientLine l) (cs : Bool) :
    (∃ e, decodeLine l (l.length + 1) cs true false = .error e) ↔ UnreadableCommand cs l := by
  rw [← decodePacket_client_line hl [], C36_client_strict]
  have hex13 : ¬ HexDigit 0x0d := by unfold HexDigit; decide
  constructor
  · rintro ⟨pre, t, rest, conf, h1, h2, h3, h4, h5⟩
    have hcr : (0x0d : UInt8) ∉ pre ++ t ++ conf.toList := by
      intro hm
      simp only [List.mem_append] at hm
      rcases hm with (h | h) | h
      · rcases h3 with rfl | rfl | rfl
        · simp at h
        · revert h; decide
        · revert h; decide
      · exact hex13 (unreadable_hex h5 _ h)
      · cases conf with
        | none => simp at h
        | some c =>
          simp only [Option.toList_some, List.mem_singleton] at h
          subst h
          exact absurd (h4 _ rfl) (by decide)
    have := line_unique hl.1 hcr h1
    subst this
    exact ⟨h2, pre, t, conf, rfl, h3, h4, h5⟩
  · rintro ⟨h2, pre, t, conf, rfl, h3, h4, h5⟩
    exact ⟨pre, t, [], conf, rfl, h2, h3, h4, h5⟩

/-- C42 for the simulated PCI, every line, whatever the options. A readable line is
taken out of the buffer, together with what a bare CAL swallows, and what is behind
that is handled as if it had come alone afterwards, provided the handler does not
raise (C74); the packet does not depend on what is behind the line. On an unreadable
line nothing happens, ever (`C42_blocked_server`). -/
theorem C42_server_line (rand : Nat → Int) (l : Bytes) (hl : ClientLine l) (cs : Bool) :
    (UnreadableCommand cs l → ∃ e, ∀ rest s, s.checksum = cs →
      processBuffer (Server.handle rand) (l ++ 0x0d :: rest) s = (⟨l ++ 0x0d :: rest, s⟩, [], .error e)) ∧
    (¬ UnreadableCommand cs l →
      ∃ p, decodePacket (l ++ [0x0d]) cs true false = .ok (p, l.length + 1 + swallowed p) ∧
        ∀ rest s, s.checksum = cs → processBuffer (Server.handle rand) (l ++ 0x0d :: rest) s =
          followedBy (Proc.andThen (Server.echo (l ++ 0x0d :: rest.take (swallowed p)))
              (fun _ => onDecoded (Server.onPacket rand) p) s)
            (l ++ 0x0d :: rest) (processBuffer (Server.handle rand) (rest.drop (swallowed p)))) := by
  constructor
  · intro hu
    obtain ⟨e, he⟩ := (unreadable_command_iff hl cs).2 hu
    refine ⟨e, fun rest s hs => ?_⟩
    have hd : decodePacket (l ++ 0x0d :: rest) s.checksum true false = .error e := by
      rw [decodePacket_client_line hl, hs]; exact he
    refine processBuffer_error (by simp) ?_
    unfold Server.handle handleData
    simp only [Bool.not_true, hd]
  · intro hu
    have hok : ∃ p, decodeLine l (l.length + 1) cs true false = .ok (p, l.length + 1 + swallowed p) := by
      cases h : decodeLine l (l.length + 1) cs true false with
      | error e => exact absurd ((unreadable_command_iff hl cs).1 ⟨e, h⟩) hu
      | ok r =>
        obtain ⟨p, n⟩ := r
        refine ⟨p, ?_⟩
        obtain ⟨-, h2⟩ := decodeLine_result h
        by_cases hx : ∃ x, p = some (.cal x)
        · obtain ⟨x, rfl⟩ := hx
          rw [decodeLine_cal h]
          rfl
        · have hn : n = l.length + 1 := by
            rcases h2 with h2 | ⟨-, h2, -⟩
            · exact h2
            · exact absurd h2 hx
          have hs : swallowed p = 0 := by
            cases p with
            | none => rfl
            | some q =>
              cases q with
              | cal x => exact absurd ⟨x, rfl⟩ hx
              | _ => rfl
          rw [hn, hs]
    obtain ⟨p, hp⟩ := hok
    refine ⟨p, by rw [decodePacket_client_line hl]; exact hp, fun rest s hs => ?_⟩
    have hd : decodePacket (l ++ 0x0d :: rest) s.checksum true false = .ok (p, l.length + 1 + swallowed p) := by
      rw [decodePacket_client_line hl, hs]; exact hp
    unfold Server.handle
    rw [process_decoded (checksum := fun s : Server => s.checksum) (by simp) hd (by omega)]
    have hdrop : (l ++ 0x0d :: rest).drop (l.length + 1 + swallowed p) = rest.drop (swallowed p) := by
      rw [List.drop_append, List.drop_eq_nil_of_le (by omega), List.nil_append]
      rw [show l.length + 1 + swallowed p - l.length = swallowed p + 1 by omega]
      rfl
    have htake : (l ++ 0x0d :: rest).take (l.length + 1 + swallowed p) = l ++ 0x0d :: rest.take (swallowed p) := by
      rw [List.take_append, List.take_of_length_le (by omega)]
      rw [show l.length + 1 + swallowed p - l.length = swallowed p + 1 by omega]
      rfl
    rw [hdrop, htake]
    rfl

/-- The claim of C42 for the simulated PCI: a line that is rejected as invalid is
echoed in basic mode and otherwise has no effect; what is behind it is handled as if
it had come alone. This includes wrong checksums, characters that are not digits,
unknown applications, truncated commands, whatever the prefix and the options. -/
theorem C42_server_skips (rand : Nat → Int) (l : Bytes) (hl : ClientLine l) (s : Server) (hc : s.connected = true)
    (x : Bytes) (e : PyErr) (n : Nat)
    (hd : decodePacket (l ++ [0x0d]) s.checksum true false = .ok (some (.invalid x e), n)) (rest : Bytes) :
    n = l.length + 1 ∧
    processBuffer (Server.handle rand) (l ++ 0x0d :: rest) s =
      ((processBuffer (Server.handle rand) rest s).1,
       (if s.basic then [.echo (l ++ [0x0d])] else []) ++ (processBuffer (Server.handle rand) rest s).2.1,
       (processBuffer (Server.handle rand) rest s).2.2) := by
  have hu : ¬ UnreadableCommand s.checksum l := by
    intro hu
    obtain ⟨e', he⟩ := (unreadable_command_iff hl s.checksum).2 hu
    rw [decodePacket_client_line hl, he] at hd
    cases hd
  obtain ⟨p, h1, h2⟩ := (C42_server_line rand l hl s.checksum).2 hu
  rw [hd] at h1
  injection h1 with h1
  injection h1 with h1 h3
  subst h1
  refine ⟨h3, ?_⟩
  rw [h2 rest s rfl]
  cases hb : s.basic <;> simp [followedBy, swallowed, onDecoded, Server.onPacket, Proc.andThen, Server.echo, hb, hc, pure]

/-- A character that is no digit, then a reset. -/
example : ClientLine (ascii "\\05380Z79") ∧
    decodePacket (ascii "\\05380Z79\r") false true false = .ok (some (.invalid (ascii "05380Z79") .valueError), 10) ∧
    (Server.dataReceived (fun _ => 1) (ascii "\\05380Z79\r~") ⟨[], { connected := true }⟩).2 =
      ([.echo (ascii "\\05380Z79\r"), .echo (ascii "~"), .event .reset], .ok ()) ∧
    UnreadableCommand false (ascii "\\053g") := by
  refine ⟨?_, by decide +kernel, by decide +kernel, by decide, [0x5c], ascii "053", some 0x67, rfl, by simp, ?_, ?_, ?_⟩
  · unfold ClientLine; decide +kernel
  · intro c h; injection h with h; subst h; decide
  · intro c hc
    have : c = 0x30 ∨ c = 0x35 ∨ c = 0x33 := by
      revert hc; revert c; apply forall_byte; decide +kernel
    rcases this with rfl | rfl | rfl <;> (unfold HexDigit; decide)
  · left; decide +kernel

/-- C41, the exception: a bare CAL has no effect (besides its echo), and of what is in the buffer behind
its line as many bytes are lost as the CAL has; the rest is treated as ever. -/
theorem C41_swallowed (rand : Nat → Int) (s : Server) (hs : s.connected = true) (b : Bytes) (x : CAL) (n : Nat)
    (h : decodePacket b s.checksum true false = .ok (some (.cal x), n)) :
    ∃ l rest, b = l ++ 0x0d :: rest ∧ (0x0d : UInt8) ∉ l ∧
      let r := processBuffer (Server.handle rand) (rest.drop (calSize x)) s
      processBuffer (Server.handle rand) b s =
        (r.1, (if s.basic then [.echo (l ++ 0x0d :: rest.take (calSize x))] else []) ++ r.2.1, r.2.2) := by
  obtain ⟨-, l, rest, rfl, hl, hn⟩ := C33_cal _ _ _ _ _ _ h
  refine ⟨l, rest, rfl, hl, ?_⟩
  intro r
  have hpos : 0 < n := by omega
  have ht : (l ++ 0x0d :: rest).take n = l ++ 0x0d :: rest.take (calSize x) := by
    rw [hn, List.take_append]
    rw [List.take_of_length_le (by omega), show l.length + 1 + calSize x - l.length = calSize x + 1 by omega]
    rfl
  have hd : (l ++ 0x0d :: rest).drop n = rest.drop (calSize x) := by
    rw [hn, List.drop_append]
    rw [List.drop_of_length_le (by omega), show l.length + 1 + calSize x - l.length = calSize x + 1 by omega]
    rfl
  have hh : Server.handle rand (l ++ 0x0d :: rest) s =
      (s, (if s.basic then [.echo (l ++ 0x0d :: rest.take (calSize x))] else []), .ok (n : Int)) := by
    unfold Server.handle handleData
    simp only [Bool.not_true, h]
    rw [if_pos ⟨trivial, hpos⟩, ht]
    unfold Server.echo
    cases hb : s.basic <;> simp [Proc.andThen, hb, hs, pure, Server.onPacket]
  rw [processBuffer_step (by simp) hh (by omega)]
  show _ = _
  rw [show (n : Int).toNat = n from rfl, hd]

/-- Two bytes of the reset behind a direct IDENTIFY command are lost, the third one is carried out. -/
example : decodePacket (ascii "@002101\r~~~") true true false = .ok (some (.cal (.identify 1)), 10) ∧
    (processBuffer (Server.handle fun _ => 1) (ascii "@002101\r~~~") { connected := true, basic := true }).2.1 =
      [.echo (ascii "@002101\r~~"), .echo (ascii "~"), .event .reset] := by decide +kernel

end CBus.Props
