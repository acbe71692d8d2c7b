import Verif.Lemmas.Decode
import Verif.Props.Cal

/-! # C25 – C31: packets survive the wire -/

namespace CBus.Props
open CBus CBus.Spec

/-! ## C25, C26 -/

/-- A packet of SALs that can be sent: it has one of the applications the
library knows, and all its SALs are well formed and for that application. -/
def PmOk (p : PM) : Prop :=
  match p.app with
  | none => False
  | some a => (expectedHandler a).isSome ∧ SalsFor a p.sals

instance (p : PM) : Decidable (PmOk p) := by unfold PmOk; split <;> infer_instance

theorem pm_encode (p : PM) (h : PmOk p) :
    ∃ (ab : UInt8) (b : Bytes), p.encode = .ok (withSum p.checksum
        (headerBytes .pm false p.prio p.src ++ (ab :: 0 :: b))) ∧
      ∀ cs prio, decodePM (ab :: 0 :: b) cs prio =
        .ok { checksum := cs, prio := prio, app := p.app, sals := p.sals.map received } := by
  unfold PmOk at h
  cases ha : p.app with
  | none => rw [ha] at h; exact absurd h id
  | some a =>
    rw [ha] at h
    obtain ⟨h1, h2⟩ := h
    obtain ⟨hd, hh⟩ := Option.isSome_iff_exists.1 h1
    obtain ⟨ab, b, e1, e2, e3⟩ := decodePM_encode hh h2
    have hr := expectedHandler_byte hh
    refine ⟨ab, b, ?_, e3⟩
    have hr' : ¬ (a < 0 ∨ a > 0xff) := by omega
    simp only [PM.encode, ha, hr', if_false, e1, e2, bind, Except.bind, pure, Except.pure]
    rfl

/-- C25: a command sent to the PCI as backslash, text, confirmation code (if
any) and CR is decoded on the other side into the same packet, up to the
documented quantisations, and exactly the line is consumed, whatever follows
it. -/
theorem C25_command (p : PM) (h : PmOk p) (hsrc : p.src = none) :
    ∃ w, (Packet.pm p).encodePacket = .ok w ∧
      ∀ (conf : Option UInt8) (rest : Bytes) (strict : Bool),
        (∀ c, conf = some c → c ∈ confirmationCodes) →
        decodePacket (0x5c :: w ++ conf.toList ++ 0x0d :: rest) p.checksum strict false =
          .ok (some (.pm { p with sals := p.sals.map received, conf := conf }),
            1 + w.length + conf.toList.length + 1) := by
  obtain ⟨ab, b, e1, e2⟩ := pm_encode p h
  rw [hsrc] at e1
  refine ⟨_, by simp only [Packet.encodePacket, e1, bind, Except.bind, pure, Except.pure]; rfl, ?_⟩
  intro conf rest strict hc
  have := decodePacket_client .backslash (headerBytes .pm false p.prio none ++ (ab :: 0 :: b)) rest
    (by simp [headerBytes]) conf hc p.checksum strict
  simp only [CmdPrefix.text, List.cons_append, List.nil_append] at this
  simp only [List.cons_append]
  rw [this, decodeBody_client]
  simp only [dispatch, CmdPrefix.dm, e2, bind, Except.bind, pure, Except.pure, Bool.false_eq_true, if_false,
    attach, Bool.not_false, if_true, Nat.add_zero, b16encode_length, List.length_cons, List.length_nil, hsrc]

/-- C26: an event sent by the PCI as text, CR, LF. -/
theorem C26_event (p : PM) (h : PmOk p) (src : Int) (hsrc : p.src = some src) (hs : 1 ≤ src ∧ src ≤ 255) :
    ∃ w, (Packet.pm p).encodePacket = .ok w ∧
      ∀ (rest : Bytes) (strict : Bool),
        decodePacket (w ++ 0x0d :: 0x0a :: rest) p.checksum strict true =
          .ok (some (.pm { p with sals := p.sals.map received, conf := none }), w.length + 2) := by
  obtain ⟨ab, b, e1, e2⟩ := pm_encode p h
  rw [hsrc] at e1
  refine ⟨_, by simp only [Packet.encodePacket, e1, bind, Except.bind, pure, Except.pure]; rfl, ?_⟩
  intro rest strict
  have := decodePacket_pci (headerBytes .pm false p.prio (some src) ++ (ab :: 0 :: b)) rest
    (by simp [headerBytes]) p.checksum strict
  rw [this]
  simp only [headerBytes, List.cons_append, List.nil_append]
  rw [decodeBody_pci]
  have hb : ((lowByte src).toNat : Int) = src := isByte_cast ⟨by omega, by omega⟩
  have hne : lowByte src ≠ 0 := by
    intro h0; rw [h0] at hb; simp at hb; omega
  simp only [dispatch, e2, bind, Except.bind, pure, Except.pure, Bool.false_eq_true, if_false, attach,
    Bool.not_true, hne, ne_eq, not_false_eq_true, if_true, Nat.add_zero, b16encode_length, hb, hsrc]

/-- Two lighting commands in one packet. -/
def examplePM : PM :=
  { app := some 0x38, sals := [.lightOn 1, .lightRamp 2 17 (.int 128)], prio := .class4 }

example : PmOk examplePM ∧
    (Packet.pm examplePM).encodePacket = .ok (ascii "0538007901220280A5") ∧
    decodePacket (ascii "\\0538007901220280A5h\rmore") true true false =
      .ok (some (.pm { examplePM with sals := [.lightOn 1, .lightRamp 2 20 (.int 128)], conf := some 0x68 }),
        21) := by decide +kernel

example : PmOk { examplePM with src := some 5 } ∧
    ∃ w, (Packet.pm { examplePM with src := some 5 }).encodePacket = .ok w ∧ w.length = 20 := by
  exact ⟨by decide +kernel, _, rfl, by decide +kernel⟩

/-! ## C27 -/

/-- The source address a decoded packet carries, for the three kinds that have
one. -/
def sourceOf : Packet → Option (Option Int)
  | .pm p => some p.src
  | .pp p => some p.src
  | .dm p => some p.src
  | _ => none

theorem sourceOf_fresh {dat : DAT} {dp : Bool} {d : Bytes} {cs : Bool} {prio : Prio} {p : Packet} {n : Nat}
    (h : dispatch dat dp false d cs prio = .ok (p, n)) : sourceOf p = some none := by
  have hmk : ∀ (l : List SAL) (q p : PM), q.appendAll l = .ok p → p.src = q.src := by
    intro l
    induction l with
    | nil => intro q p h; simp [PM.appendAll] at h; rw [h]
    | cons s ss ih =>
      intro q p h
      rw [PM.appendAll] at h
      split at h
      · rename_i q' hq'
        rw [ih q' p h]
        have : q' = (q.appendSal s).1 := by rw [hq']
        rw [this]; unfold PM.appendSal; split
        · rfl
        · split <;> rfl
      · cases h
  have hpm : ∀ p, decodePM d cs prio = .ok p → p.src = none := by
    intro p h
    unfold decodePM at h
    simp only [bind, Except.bind, throw, throwThe, MonadExceptOf.throw] at h
    repeat' split at h
    all_goals first
      | cases h
      | (unfold mkPM at h; rw [hmk _ _ _ h])
  have hpp : ∀ p, decodePP d cs prio = .ok p → p.src = none := by
    intro p h
    unfold decodePP mkPP at h
    simp only [bind, Except.bind, pure, Except.pure, throw, throwThe, MonadExceptOf.throw] at h
    repeat' split at h
    all_goals first
      | (injection h with h; subst h; rfl)
      | cases h
  have hdm : ∀ p, decodeDM d cs prio = .ok p → p.src = none := by
    intro p h
    unfold decodeDM at h
    simp only [bind, Except.bind, pure, Except.pure, throw, throwThe, MonadExceptOf.throw] at h
    repeat' split at h
    all_goals first
      | (injection h with h; subst h; rfl)
      | cases h
  unfold dispatch at h
  simp only [bind, Except.bind, pure, Except.pure, Bool.false_eq_true, if_false] at h
  repeat' split at h
  all_goals first
    | (injection h with h; injection h with h _; subst h
       simp only [sourceOf, Option.some.injEq]
       first | (exact hpm _ (by assumption)) | (exact hpp _ (by assumption)) | (exact hdm _ (by assumption)))
    | cases h

/-- C27 for every event with a nonzero address: whenever a line is decoded into
a packet that carries a source address, it is the address byte on the wire; the
byte 0 is reported as no address at all.

Missing from the full claim: address byte 0 (see `C27_false`). -/
theorem C27_source_partial (raw rest : Bytes) (cs strict : Bool) (q : Packet) (n : Nat) (o : Option Int)
    (h : decodePacket (b16encode raw ++ 0x0d :: 0x0a :: rest) cs strict true = .ok (some q, n))
    (ho : sourceOf q = some o) :
    ∃ s, raw[1]? = some s ∧ o = if s = 0 then none else some (s.toNat : Int) := by
  have hraw : raw ≠ [] := by
    rintro rfl
    have := decodePacket_pci_nil rest cs strict
    simp only [b16encode, List.nil_append] at h
    rw [this] at h; injection h with h; injection h with h _; cases h
  have body : ∀ m : Bytes, (∀ k : Nat, m[k]? ≠ none → m[k]? = raw[k]?) →
      ∀ c, decodeBody m c cs true false none = .ok (some q, n) →
      ∃ s, raw[1]? = some s ∧ o = if s = 0 then none else some (s.toNat : Int) := by
    intro m hm c hb
    unfold decodeBody at hb
    split at hb
    · cases hb
    · rename_i flags data1
      simp only [if_true] at hb
      split at hb
      · injection hb with hb; injection hb with hb _; injection hb with hb; subst hb; simp [sourceOf] at ho
      · split at hb
        · injection hb with hb; injection hb with hb _; injection hb with hb; subst hb; simp [sourceOf] at ho
        · rename_i s data2
          refine ⟨s, ?_, ?_⟩
          · have := hm 1 (by simp); rw [← this]; rfl
          · split at hb
            · injection hb with hb; injection hb with hb _; injection hb with hb; subst hb
              simp [sourceOf] at ho
            · rename_i p k hd
              injection hb with hb; injection hb with hb _; injection hb with hb; subst hb
              have hf := sourceOf_fresh hd
              by_cases h0 : s = 0
              · simp only [attach, Bool.not_true, Bool.false_eq_true, if_false, h0, ne_eq, not_true] at ho
                rw [hf] at ho; injection ho with ho; rw [← ho, if_pos h0]
              · rw [if_neg h0]
                simp only [attach, Bool.not_true, Bool.false_eq_true, if_false, h0, ne_eq, not_false_eq_true,
                  if_true] at ho
                split at ho <;> first
                  | (simp only [sourceOf, Option.some.injEq] at ho; exact ho.symm)
                  | (rename_i hx1 hx2 hx3
                     cases p <;> simp [sourceOf] at hf
                     · exact absurd rfl (hx1 _)
                     · exact absurd rfl (hx2 _)
                     · exact absurd rfl (hx3 _))
  rw [decodePacket_pci_raw raw rest hraw] at h
  unfold decodeRaw at h
  split at h
  · split at h
    · cases h
    · split at h
      · injection h with h; injection h with h _; injection h with h; subst h; simp [sourceOf] at ho
      · refine body raw.dropLast ?_ _ h
        intro k hk
        rw [List.getElem?_dropLast] at hk ⊢
        split at hk
        · rename_i hlt; rw [if_pos hlt]
        · exact absurd rfl hk
  · exact body raw (fun _ _ => rfl) _ h

/-- C27 is false: an event whose source address is 0 is decoded with no source
address. -/
theorem C27_false : ¬ (∀ (raw rest : Bytes) (q : Packet) (n : Nat) (o : Option Int),
    decodePacket (b16encode raw ++ 0x0d :: 0x0a :: rest) true true true = .ok (some q, n) →
    sourceOf q = some o → ∃ s, raw[1]? = some s ∧ o = some (s.toNat : Int)) := by
  intro h
  have := h (addChecksum [0x05, 0x00, 0x38, 0x00, 0x79, 0x01]) []
    (.pm { app := some 0x38, sals := [.lightOn 1] }) 16 none (by decide +kernel) rfl
  obtain ⟨s, -, h2⟩ := this
  cases h2

example : decodePacket (ascii "05FA380079014F\r\n") true true true =
    .ok (some (.pm { app := some 0x38, sals := [.lightOn 1], src := some 0xfa }), 16) := by decide +kernel

/-! ## C28 -/

/-- C28, as a command to the PCI. -/
theorem C28_command (p : PP) (hu : IsByte p.unit) (hb : p.bridged = false) (hh : p.hops = [])
    (hc : ∀ c ∈ p.cals, CalOk c) (hsrc : p.src = none) :
    ∃ w, (Packet.pp p).encodePacket = .ok w ∧
      ∀ (conf : Option UInt8) (rest : Bytes) (strict : Bool),
        (∀ c, conf = some c → c ∈ confirmationCodes) →
        decodePacket (0x5c :: w ++ conf.toList ++ 0x0d :: rest) p.checksum strict false =
          .ok (some (.pp { p with conf := conf }), 1 + w.length + conf.toList.length + 1) := by
  obtain ⟨u, e1, e2⟩ := mkByte_isByte hu
  obtain ⟨b, e3, e4⟩ := C15_cal_sequence p.cals hc
  refine ⟨b16encode (withSum p.checksum (headerBytes .pp false p.prio none ++ (u :: 0 :: b))), ?_, ?_⟩
  · simp only [Packet.encodePacket, PP.encode, hb, Bool.false_eq_true, if_false, e1, e3, bind, Except.bind,
      pure, Except.pure, hsrc]
    rfl
  · intro conf rest strict hconf
    have := decodePacket_client .backslash (headerBytes .pp false p.prio none ++ (u :: 0 :: b)) rest
      (by simp [headerBytes]) conf hconf p.checksum strict
    simp only [CmdPrefix.text, List.cons_append, List.nil_append] at this
    simp only [List.cons_append]
    rw [this, decodeBody_client]
    simp only [dispatch, CmdPrefix.dm, decodePP, byteAt, List.getElem?_cons_succ, List.getElem?_cons_zero,
      if_true, List.drop_succ_cons, List.drop_zero, e4, mkPP, bind, Except.bind, pure, Except.pure,
      Bool.false_eq_true, if_false, ne_eq, not_true, attach, Bool.not_false, Nat.add_zero, b16encode_length,
      List.length_cons, List.length_nil, e2]
    cases p
    simp_all

/-- C28, as an event from the PCI. -/
theorem C28_event (p : PP) (hu : IsByte p.unit) (hb : p.bridged = false) (hh : p.hops = [])
    (hc : ∀ c ∈ p.cals, CalOk c) (src : Int) (hsrc : p.src = some src) (hs : 1 ≤ src ∧ src ≤ 255) :
    ∃ w, (Packet.pp p).encodePacket = .ok w ∧
      ∀ (rest : Bytes) (strict : Bool),
        decodePacket (w ++ 0x0d :: 0x0a :: rest) p.checksum strict true =
          .ok (some (.pp { p with conf := none }), w.length + 2) := by
  obtain ⟨u, e1, e2⟩ := mkByte_isByte hu
  obtain ⟨b, e3, e4⟩ := C15_cal_sequence p.cals hc
  refine ⟨b16encode (withSum p.checksum (headerBytes .pp false p.prio (some src) ++ (u :: 0 :: b))), ?_, ?_⟩
  · simp only [Packet.encodePacket, PP.encode, hb, Bool.false_eq_true, if_false, e1, e3, bind, Except.bind,
      pure, Except.pure, hsrc]
    rfl
  · intro rest strict
    rw [decodePacket_pci (headerBytes .pp false p.prio (some src) ++ (u :: 0 :: b)) rest
      (by simp [headerBytes]) p.checksum strict]
    simp only [headerBytes, List.cons_append, List.nil_append]
    rw [decodeBody_pci]
    have hb' : ((lowByte src).toNat : Int) = src := isByte_cast ⟨by omega, by omega⟩
    have hne : lowByte src ≠ 0 := by
      intro h0; rw [h0] at hb'; simp at hb'; omega
    simp only [dispatch, decodePP, byteAt, List.getElem?_cons_succ, List.getElem?_cons_zero, if_true,
      List.drop_succ_cons, List.drop_zero, e4, mkPP, bind, Except.bind, pure, Except.pure, Bool.false_eq_true,
      if_false, ne_eq, not_true, attach, Bool.not_true, hne, not_false_eq_true, Nat.add_zero,
      b16encode_length, e2, hb']
    cases p
    simp_all

/-- A unit asked to identify itself. -/
def examplePP : PP := { unit := 0x0c, cals := [.identify 1, .reply 3 [1, 2]], prio := .class2 }

example : IsByte examplePP.unit ∧ examplePP.bridged = false ∧ (∀ c ∈ examplePP.cals, CalOk c) ∧
    (∃ w, (Packet.pp examplePP).encodePacket = .ok w ∧
      decodePacket (0x5c :: w ++ ascii "g\r") true true false =
        .ok (some (.pp { examplePP with conf := some 0x67 }), w.length + 3)) :=
  ⟨by decide, rfl, by decide, _, rfl, by decide +kernel⟩

/-! ## C29 -/

theorem takeHops_ok (hops rest : Bytes) :
    takeHops hops.length (hops ++ rest) = .ok (hops.map (fun b => (b.toNat : Int)), rest) := by
  induction hops with
  | nil => simp [takeHops]
  | cons h hs ih => simp [takeHops, ih]

/-- The route codes of a bridged message, and how many hops follow: the code is
nine times the number of bridges crossed (Serial Interface User Guide 4.2.9.2). -/
def routeCode (hops : Nat) : UInt8 := UInt8.ofNat (9 * (hops + 1))

theorem bridgeLength_routeCode (n : Nat) (h : n ≤ 5) : bridgeLength (routeCode n) = .ok n ∧ routeCode n ≠ 0 := by
  have : ∀ n : Fin 6, bridgeLength (routeCode n.val) = .ok n.val ∧ routeCode n.val ≠ 0 := by decide
  exact this ⟨n, by omega⟩

theorem decodePP_bridged (bridge : UInt8) (hbr : bridge ≠ 0) (hops : Bytes) (hh : hops.length ≤ 5)
    (unit : UInt8) (cals : List CAL) (b : Bytes) (hb : decodeCals b = .ok cals) (cs : Bool) (prio : Prio) :
    decodePP (bridge :: routeCode hops.length :: hops ++ unit :: b) cs prio =
      .ok { checksum := cs, prio := prio, unit := unit.toNat, hops := hops.map (fun b => (b.toNat : Int)),
            bridged := true, cals := cals } := by
  obtain ⟨h1, h2⟩ := bridgeLength_routeCode hops.length hh
  have h0 : ¬ ((bridge.toNat : Int) ≤ 0) := by
    intro h
    apply hbr
    have : bridge.toNat = 0 := by omega
    exact UInt8.toNat_inj.1 this
  simp only [decodePP, byteAt, List.cons_append, List.getElem?_cons_succ, List.getElem?_cons_zero, bind,
    Except.bind, h2, if_false, h1, List.drop_succ_cons, List.drop_zero, takeHops_ok, hb, mkPP, h0]

/-- C29: a message routed through a bridge and up to five further hops, from
either direction. -/
theorem C29_bridged (prio : Prio) (bridge : UInt8) (hbr : bridge ≠ 0) (hops : Bytes)
    (hh : hops.length ≤ 5) (unit : UInt8) (cals : List CAL) (hc : ∀ c ∈ cals, CalOk c) (cs strict : Bool) :
    ∃ b, encodeCals cals = .ok b ∧
      (∀ (conf : Option UInt8) (rest : Bytes), (∀ c, conf = some c → c ∈ confirmationCodes) →
        let m := withSum cs (flagsByte .pp false prio :: bridge :: routeCode hops.length :: hops ++ unit :: b)
        decodePacket (0x5c :: b16encode m ++ conf.toList ++ 0x0d :: rest) cs strict false =
          .ok (some (.pp { checksum := cs, prio := prio, unit := unit.toNat,
                           hops := hops.map (fun b => (b.toNat : Int)), bridged := true, cals := cals,
                           conf := conf }), 2 * m.length + conf.toList.length + 2)) ∧
      (∀ (src : UInt8) (rest : Bytes), src ≠ 0 →
        let m := withSum cs
          (flagsByte .pp false prio :: src :: bridge :: routeCode hops.length :: hops ++ unit :: b)
        decodePacket (b16encode m ++ 0x0d :: 0x0a :: rest) cs strict true =
          .ok (some (.pp { checksum := cs, prio := prio, unit := unit.toNat,
                           hops := hops.map (fun b => (b.toNat : Int)), bridged := true, cals := cals,
                           src := some (src.toNat : Int) }), 2 * m.length + 2)) := by
  obtain ⟨b, e3, e4⟩ := C15_cal_sequence cals hc
  have hd := decodePP_bridged bridge hbr hops hh unit cals b e4 cs prio
  refine ⟨b, e3, ?_, ?_⟩
  · intro conf rest hconf
    have := decodePacket_client .backslash
      (headerBytes .pp false prio none ++ (bridge :: routeCode hops.length :: hops ++ unit :: b)) rest
      (by simp [headerBytes]) conf hconf cs strict
    simp only [CmdPrefix.text, List.cons_append, List.nil_append] at this
    rw [decodeBody_client] at this
    simp only [headerBytes, List.cons_append, List.nil_append] at this hd ⊢
    rw [this]
    simp only [dispatch, CmdPrefix.dm, hd, bind, Except.bind, pure, Except.pure, Bool.false_eq_true, if_false,
      attach, Bool.not_false, if_true, List.length_cons, List.length_nil]
    congr 2
    omega
  · intro src rest hsrc
    have := decodePacket_pci
      (flagsByte .pp false prio :: src :: (bridge :: routeCode hops.length :: hops ++ unit :: b)) rest
      (by simp) cs strict
    rw [decodeBody_pci] at this
    simp only [List.cons_append] at this hd ⊢
    rw [this]
    simp only [dispatch, hd, bind, Except.bind, pure, Except.pure, Bool.false_eq_true, if_false, attach,
      Bool.not_true, hsrc, ne_eq, not_false_eq_true, if_true, Nat.add_zero]

theorem bridgeLength_bad (code : UInt8) (h : ∀ n ≤ 5, code ≠ routeCode n) :
    bridgeLength code = .error .keyError := by
  have h' : ∀ n : Fin 6, code ≠ routeCode n.val := fun n => h n.val (by omega)
  revert h'
  revert code
  apply forall_byte
  decide +kernel

/-- C29: a route code that is neither "not bridged" nor one of the six legal
ones makes the message an `InvalidPacket`, from either direction. -/
theorem C29_bad_route (prio : Prio) (b0 code : UInt8) (h0 : code ≠ 0)
    (hcode : ∀ n ≤ 5, code ≠ routeCode n) (tail rest : Bytes) (cs strict : Bool) :
    (∀ (conf : Option UInt8), (∀ c, conf = some c → c ∈ confirmationCodes) →
      ∃ e n, decodePacket (0x5c :: b16encode (withSum cs (flagsByte .pp false prio :: b0 :: code :: tail)) ++
        conf.toList ++ 0x0d :: rest) cs strict false = .ok (some (.invalid (b0 :: code :: tail) e), n)) ∧
    (∀ src : UInt8,
      ∃ e n, decodePacket (b16encode (withSum cs (flagsByte .pp false prio :: src :: b0 :: code :: tail)) ++
        0x0d :: 0x0a :: rest) cs strict true = .ok (some (.invalid (b0 :: code :: tail) e), n)) := by
  have hd : decodePP (b0 :: code :: tail) cs prio = .error .keyError := by
    simp only [decodePP, byteAt, List.getElem?_cons_succ, List.getElem?_cons_zero, bind, Except.bind, h0,
      if_false, bridgeLength_bad code hcode]
  constructor
  · intro conf hconf
    have := decodePacket_client .backslash (headerBytes .pp false prio none ++ (b0 :: code :: tail)) rest
      (by simp [headerBytes]) conf hconf cs strict
    rw [decodeBody_client] at this
    simp only [CmdPrefix.text, headerBytes, List.cons_append, List.nil_append] at this ⊢
    rw [this]
    simp only [dispatch, CmdPrefix.dm, hd, bind, Except.bind, Bool.false_eq_true, if_false]
    exact ⟨_, _, rfl⟩
  · intro src
    have := decodePacket_pci (flagsByte .pp false prio :: src :: (b0 :: code :: tail)) rest (by simp) cs strict
    rw [decodeBody_pci] at this
    rw [this]
    simp only [dispatch, hd, bind, Except.bind, Bool.false_eq_true, if_false]
    exact ⟨_, _, rfl⟩

example : (∀ n ≤ 5, (0x13 : UInt8) ≠ routeCode n) ∧
    decodePacket (ascii "\\0603131A212101\r") false true false =
    .ok (some (.invalid [0x03, 0x13, 0x1a, 0x21, 0x21, 0x01] .keyError), 16) := by decide +kernel

example : decodePacket (ascii "\\0603121A212101\r") false true false =
    .ok (some (.pp { checksum := false, unit := 0x21, hops := [0x1a], bridged := true, cals := [.identify 1] }),
      16) := by decide +kernel

/-! ## C30 -/

/-- C30, as a command to the PCI, with or without the backslash. -/
theorem C30_command (p : DM) (hsrc : p.src = none) (backslash : Bool) (conf : Option UInt8) (rest : Bytes)
    (strict : Bool) (hconf : ∀ c, conf = some c → c ∈ confirmationCodes) :
    ∃ w, (Packet.dm p).encodePacket = .ok w ∧
      decodePacket ((if backslash then [0x5c] else []) ++ w ++ conf.toList ++ 0x0d :: rest)
          p.checksum strict false =
        .ok (some (.dm { p with parameter := p.parameter % 256, value := p.value % 256, conf := conf }),
          (if backslash then 1 else 0) + w.length + conf.toList.length + 1) := by
  refine ⟨_, rfl, ?_⟩
  have he : p.encode = withSum p.checksum
      (headerBytes .ppm true p.prio none ++ [lowByte p.parameter, 0, lowByte p.value]) := by
    unfold DM.encode; rw [hsrc]; rfl
  have key : ∀ pre : CmdPrefix, decodePacket (pre.text ++ b16encode p.encode ++ conf.toList ++ 0x0d :: rest)
      p.checksum strict false =
      .ok (some (.dm { p with parameter := p.parameter % 256, value := p.value % 256, conf := conf }),
          pre.text.length + (b16encode p.encode).length + conf.toList.length + 1) := by
    intro pre
    rw [he, decodePacket_client pre _ rest (by simp [headerBytes]) conf hconf, decodeBody_client]
    simp only [dispatch, if_true, decodeDM, byteAt, List.getElem?_cons_succ, List.getElem?_cons_zero, bind,
      Except.bind, ne_eq, not_true, if_false, List.length_cons, List.length_nil, pure, Except.pure,
      lowByte_toNat, attach, Bool.not_false, Nat.add_zero, b16encode_length, hsrc]
  cases backslash
  · exact key .none
  · exact key .backslash

/-- C30, from the PCI. -/
theorem C30_event (p : DM) (src : Int) (hsrc : p.src = some src) (hs : 1 ≤ src ∧ src ≤ 255) (rest : Bytes)
    (strict : Bool) :
    ∃ w, (Packet.dm p).encodePacket = .ok w ∧
      decodePacket (w ++ 0x0d :: 0x0a :: rest) p.checksum strict true =
        .ok (some (.dm { p with parameter := p.parameter % 256, value := p.value % 256, conf := none }),
          w.length + 2) := by
  refine ⟨_, rfl, ?_⟩
  have he : p.encode = withSum p.checksum
      (flagsByte .ppm true p.prio :: lowByte src :: [lowByte p.parameter, 0, lowByte p.value]) := by
    unfold DM.encode; rw [hsrc]; rfl
  have hb' : ((lowByte src).toNat : Int) = src := isByte_cast ⟨by omega, by omega⟩
  have hne : lowByte src ≠ 0 := by
    intro h0; rw [h0] at hb'; simp at hb'; omega
  rw [he, decodePacket_pci _ rest (by simp), decodeBody_pci]
  simp only [dispatch, if_true, decodeDM, byteAt, List.getElem?_cons_succ, List.getElem?_cons_zero, bind,
    Except.bind, ne_eq, not_true, if_false, List.length_cons, List.length_nil, pure, Except.pure,
    lowByte_toNat, attach, Bool.not_true, Bool.false_eq_true, hne, not_false_eq_true, Nat.add_zero,
    b16encode_length, hb', hsrc]

example : (Packet.dm { parameter := 0x21, value := 0x38, checksum := false }).encodePacket =
    .ok (ascii "A3210038") ∧
    decodePacket (ascii "A3210038h\r") false true false =
      .ok (some (.dm { parameter := 0x21, value := 0x38, checksum := false, conf := some 0x68 }), 10) := by
  decide +kernel

/-! ## C31 -/

/-- The full claim C31: every lighting application's commands are decoded. -/
def C31_claim : Prop :=
  ∀ (a : UInt8) (sals : List SAL) (b : Bytes) (src : UInt8) (prio : Prio),
    0x30 ≤ a.toNat → a.toNat ≤ 0x5f → src ≠ 0 → SalsFor 0x38 sals → encodeSals sals = .ok b →
    ∃ n, decodePacket (b16encode (addChecksum (flagsByte .pm false prio :: src :: a :: 0 :: b)) ++
        [0x0d, 0x0a]) true true true =
      .ok (some (.pm { app := some a.toNat, sals := sals.map received, prio := prio,
                       src := some (src.toNat : Int) }), n)

theorem lighting_handler (a : UInt8) (h1 : 0x30 ≤ a.toNat) (h2 : a.toNat ≤ 0x5f) :
    expectedHandler a.toNat = some .lighting := by
  have key : ∀ a : UInt8, 0x30 ≤ a.toNat → a.toNat ≤ 0x5f → expectedHandler a.toNat = some .lighting := by
    apply forall_byte; decide +kernel
  exact key a h1 h2

/-- What the decoder makes of lighting commands for a lighting application. -/
theorem decodePM_lighting (a : UInt8) (h1 : 0x30 ≤ a.toNat) (h2 : a.toNat ≤ 0x5f) (sals : List SAL) (hs : SalsFor 0x38 sals)
    (prio : Prio) (cs : Bool) :
    ∃ b, encodeSals sals = .ok b ∧
      decodePM (a :: 0 :: b) cs prio =
        if a = 0x38 ∨ sals = [] then
          .ok { app := some a.toNat, sals := sals.map received, prio := prio, checksum := cs }
        else .error .valueError := by
  have he := lighting_handler a h1 h2
  obtain ⟨b, e1, e2⟩ := salsFor_encode (a := 0x38) (h := .lighting) rfl hs
  refine ⟨b, e1, ?_⟩
  rw [decodePM_ok a .lighting he b _ e2]
  by_cases h : a = 0x38 ∨ sals = []
  · rw [if_pos h, mkPM_ok]
    intro s hm
    rcases h with rfl | rfl
    · obtain ⟨s', hs', rfl⟩ := List.mem_map.1 hm
      rw [received_application]; exact (hs s' hs').2
    · simp at hm
  · rw [if_neg h]
    have ha : a ≠ 0x38 := fun h' => h (Or.inl h')
    have hn : sals ≠ [] := fun h' => h (Or.inr h')
    obtain ⟨s, ss, rfl⟩ := List.exists_cons_of_ne_nil hn
    have hap : (received s).application = 0x38 := by
      rw [received_application]; exact (hs s (by simp)).2
    have hne : ((a.toNat : Int)) ≠ 0x38 := by
      intro h'
      apply ha
      have : a.toNat = 0x38 := by omega
      exact UInt8.toNat_inj.1 this
    simp only [mkPM, List.map_cons, PM.appendAll, PM.appendSal, hap, ne_eq, hne, not_false_eq_true, if_true]

/-- What really happens: for the default lighting application, and for any
lighting application when there are no commands, the packet is decoded; for the
other 47 addresses every packet that carries at least one command is rejected
as an `InvalidPacket`. -/
theorem C31_lighting_applications_partial (a : UInt8) (h1 : 0x30 ≤ a.toNat) (h2 : a.toNat ≤ 0x5f)
    (sals : List SAL) (hs : SalsFor 0x38 sals) (src : UInt8) (prio : Prio)
    (rest : Bytes) (cs strict : Bool) :
    ∃ b n, encodeSals sals = .ok b ∧
      decodePacket (b16encode (withSum cs (flagsByte .pm false prio :: src :: a :: 0 :: b)) ++
          0x0d :: 0x0a :: rest) cs strict true =
        if a = 0x38 ∨ sals = [] then
          .ok (some (.pm { app := some a.toNat, sals := sals.map received, prio := prio, checksum := cs,
                           src := if src = 0 then none else some (src.toNat : Int) }), n)
        else .ok (some (.invalid (a :: 0 :: b) .valueError), n) := by
  obtain ⟨b, e1, e2⟩ := decodePM_lighting a h1 h2 sals hs prio cs
  refine ⟨b, 2 * (withSum cs (flagsByte .pm false prio :: src :: a :: 0 :: b)).length + 2, e1, ?_⟩
  rw [decodePacket_pci _ rest (by simp), decodeBody_pci]
  simp only [dispatch, Bool.false_eq_true, if_false, e2]
  by_cases h : a = 0x38 ∨ sals = []
  · by_cases h0 : src = 0 <;>
      simp [if_pos h, bind, Except.bind, pure, Except.pure, attach, h0]
  · simp only [if_neg h, bind, Except.bind]

/-- The same for commands to a PCI. -/
theorem C31_commands_partial (a : UInt8) (h1 : 0x30 ≤ a.toNat) (h2 : a.toNat ≤ 0x5f)
    (sals : List SAL) (hs : SalsFor 0x38 sals) (prio : Prio) (conf : Option UInt8)
    (hc : ∀ c, conf = some c → c ∈ confirmationCodes) (rest : Bytes) (cs strict : Bool) :
    ∃ b n, encodeSals sals = .ok b ∧
      decodePacket (0x5c :: b16encode (withSum cs (flagsByte .pm false prio :: a :: 0 :: b)) ++ conf.toList ++
          0x0d :: rest) cs strict false =
        if a = 0x38 ∨ sals = [] then
          .ok (some (.pm { app := some a.toNat, sals := sals.map received, prio := prio, checksum := cs, conf := conf }), n)
        else .ok (some (.invalid (a :: 0 :: b) .valueError), n) := by
  obtain ⟨b, e1, e2⟩ := decodePM_lighting a h1 h2 sals hs prio cs
  have := decodePacket_client .backslash (headerBytes .pm false prio none ++ (a :: 0 :: b)) rest
    (by simp [headerBytes]) conf hc cs strict
  simp only [CmdPrefix.text, List.cons_append, List.nil_append] at this
  refine ⟨b, 1 + 2 * (withSum cs (flagsByte .pm false prio :: a :: 0 :: b)).length + conf.toList.length + 1, e1, ?_⟩
  simp only [List.cons_append]
  refine this.trans ?_
  rw [decodeBody_client]
  simp only [dispatch, CmdPrefix.dm, Bool.false_eq_true, if_false, e2]
  by_cases h : a = 0x38 ∨ sals = []
  · simp only [if_pos h, bind, Except.bind, pure, Except.pure, attach, Bool.not_false, if_true, Nat.add_zero]
    rfl
  · simp only [if_neg h, bind, Except.bind]
    rfl

/-- C31 is false: "group 1 on" for lighting application 0x30. -/
theorem C31_false : ¬ C31_claim := by
  intro h
  obtain ⟨n, h⟩ := h 0x30 [.lightOn 1] [0x79, 0x01] 5 .class4 (by decide) (by decide) (by decide) (by decide)
    (by decide)
  have : decodePacket (b16encode (addChecksum (flagsByte .pm false .class4 :: 5 :: 0x30 :: 0 :: [0x79, 0x01])) ++
      [0x0d, 0x0a]) true true true = .ok (some (.invalid [0x30, 0x00, 0x79, 0x01] .valueError), 16) := by
    decide +kernel
  rw [this] at h
  simp at h

example : SalsFor 0x38 [.lightOn 1, .lightOff 2] ∧
    decodePacket (ascii "\\053800790149g\r") true true false =
      .ok (some (.pm { app := some 0x38, sals := [.lightOn 1], conf := some 0x67 }), 15) ∧
    decodePacket (ascii "\\053000790151g\r") true true false =
      .ok (some (.invalid [0x30, 0x00, 0x79, 0x01] .valueError), 15) := by decide +kernel

end CBus.Props
