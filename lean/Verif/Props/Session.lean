import Verif.Props.Grammar
import Verif.Props.Lines
import Verif.Props.MqttEvents
import Verif.Spec.Session

/-! # C102: all that a client does with all that it receives -/

namespace CBus.Props
open CBus CBus.Spec

/-! ## Text that raises -/

theorem textFault_eq {t : Bytes} {cs strict : Bool} {e : PyErr} (h : TextFault cs strict t e) (c : Nat) (fp dm : Bool)
    (conf : Option UInt8) : decodeHex t c cs strict fp dm conf = .error e := by
  cases h with
  | odd _ h hl =>
    unfold decodeHex
    rw [if_pos ((all_isHex_iff t).2 h)]
    cases hb : b16decode t with
    | error e => rw [b16decode_error t e hb]
    | ok m =>
      have := congrArg List.length (b16encode_of_b16decode _ _ hb)
      rw [b16encode_length] at this
      omega
  | empty => cases cs <;> rfl
  | bare a b ha hb hc hs =>
    subst hc
    have hx : ∀ c ∈ [a, b], IsUpperHex c := by
      intro c hc
      simp only [List.mem_cons, List.not_mem_nil, or_false] at hc
      rcases hc with rfl | rfl <;> assumption
    unfold decodeHex
    rw [if_pos ((all_isHex_iff _).2 hx)]
    obtain ⟨r, hr⟩ := b16decode_total [a, b] (by simp) hx
    have hl := congrArg List.length (b16encode_of_b16decode _ _ hr)
    rw [b16encode_length] at hl
    match r, hl with
    | [x], _ =>
      rw [hr]
      simp only [decodeRaw, if_true]
      cases strict with
      | false =>
        simp only [validateChecksum, List.getLast?_singleton, Bool.and_false, Bool.false_eq_true, if_false]
        rfl
      | true =>
        have hx : x = 0 := (hex_byte a b x hr).2 (by rw [(hs rfl).1, (hs rfl).2])
        subst hx
        rfl

theorem textFault_of_unreadable {t : Bytes} {cs strict : Bool} (h : Unreadable cs strict t) :
    ∃ e, TextFault cs strict t e := by
  obtain ⟨h1, h2 | rfl | ⟨h2, h3, h4⟩⟩ := h
  · exact ⟨_, .odd t h1 h2⟩
  · exact ⟨_, .empty⟩
  · match t, h3 with
    | [a, b], _ =>
      refine ⟨_, .bare a b (h1 a (by simp)) (h1 b (by simp)) h2 fun hs => ?_⟩
      have := h4 hs
      simp only [List.cons.injEq, and_true] at this
      exact this

/-- C102: what is raised for the text of a message. -/
theorem C102_text (t : Bytes) (c : Nat) (cs strict fp dm : Bool) (conf : Option UInt8) (e : PyErr) :
    decodeHex t c cs strict fp dm conf = .error e ↔ TextFault cs strict t e := by
  refine ⟨fun h => ?_, fun h => textFault_eq h c fp dm conf⟩
  obtain ⟨e', h'⟩ := textFault_of_unreadable ((decodeHex_error_iff t c cs strict fp dm conf).1 ⟨e, h⟩)
  have := textFault_eq h' c fp dm conf
  rw [h] at this
  injection this with this
  exact this ▸ h'

theorem textFault_hex {t : Bytes} {cs strict : Bool} {e : PyErr} (h : TextFault cs strict t e) :
    ∀ c ∈ t, HexDigit c := by
  cases h with
  | odd _ h => exact h
  | empty => simp
  | bare a b ha hb => simp [ha, hb]

/-- C102: when reading what was received from the PCI raises, and what. -/
theorem C102_received (d : Bytes) (cs strict : Bool) (e : PyErr) :
    decodePacket d cs strict true = .error e ↔ FaultFromPci cs strict d e := by
  have back : ∀ e, FaultFromPci cs strict d e → decodePacket d cs strict true = .error e := by
    intro e h
    cases h with
    | line l rest _ hl h =>
      have hx := textFault_hex h
      obtain ⟨a, l, rfl⟩ := List.exists_cons_of_ne_nil hl
      have key : ∀ c : UInt8, HexDigit c → c ≠ 0x2b ∧ c ≠ 0x21 ∧ c ∉ confirmationCodes ∧ c ≠ 0x0d := by
        apply forall_byte; unfold HexDigit; decide +kernel
      have hp : PciLine (a :: l) := by
        refine ⟨?_, ?_⟩
        · intro hi
          have := hi.subset (show (0x0d : UInt8) ∈ _ by simp)
          exact (key _ (hx _ this)).2.2.2 rfl
        · intro c hc
          simp only [List.head?_cons, Option.some.injEq] at hc
          subst hc
          obtain ⟨h1, h2, h3, -⟩ := key a (hx a (by simp))
          exact ⟨h1, h2, h3⟩
      unfold decodePacket
      rw [if_pos rfl, framePci_line_any hp]
      simp only [decodeLine, if_true]
      exact textFault_eq h _ _ _ _
  refine ⟨fun h => ?_, back e⟩
  obtain ⟨l, rest, rfl, h2, h3⟩ := (C36_pci_partial d cs strict).1 ⟨e, h⟩
  obtain ⟨e', h'⟩ := textFault_of_unreadable h3
  have := back e' (.line l rest e' h2 h')
  rw [h] at this
  injection this with this
  exact this ▸ .line l rest e' h2 h'

theorem conf_fault (t : Bytes) (c : Nat) (cs strict dm : Bool) (e : PyErr) :
    decodeConf t c cs strict dm = .error e ↔ ConfFault cs strict t e := by
  rcases List.eq_nil_or_concat t with rfl | ⟨t, l, rfl⟩
  · simp only [decodeConf, List.getLast?_nil, Except.error.injEq]
    constructor
    · rintro rfl; exact .plain _ _ .empty
    · intro h
      generalize ht : ([] : Bytes) = t at h
      cases h with
      | plain _ _ h =>
        subst ht
        cases h with
        | odd _ _ hl => simp at hl
        | empty => rfl
      | code => simp at ht
  · simp only [decodeConf, List.concat_eq_append, List.getLast?_append, List.getLast?_singleton, Option.some_or,
      List.dropLast_concat]
    by_cases hl : HexDigit l
    · rw [if_pos ((isHex_iff l).2 hl), C102_text]
      constructor
      · exact fun h => .plain _ _ h
      · intro h
        generalize ht : t ++ [l] = t' at h
        cases h with
        | plain _ _ h => exact h
        | code t' c _ hn =>
          have := (List.append_inj' ht rfl).2
          simp only [List.cons.injEq, and_true] at this
          exact absurd hl (this ▸ hn)
    · rw [if_neg (fun h => hl ((isHex_iff l).1 h))]
      have hno : ∀ e, ¬ TextFault cs strict (t ++ [l]) e := fun e h => hl (textFault_hex h l (by simp))
      by_cases hc : l ∉ confirmationCodes ∧ strict = true
      · rw [if_pos hc]
        simp only [reduceCtorEq, false_iff]
        intro h
        generalize ht : t ++ [l] = t' at h
        cases h with
        | plain _ _ h => exact hno e (ht ▸ h)
        | code t' c _ hn hc' =>
          have := (List.append_inj' ht rfl).2
          simp only [List.cons.injEq, and_true] at this
          subst this
          exact hc.1 ((code_iff l).2 (hc' hc.2))
      · rw [if_neg hc, C102_text]
        constructor
        · refine fun h => .code t l e hl (fun hs => ?_) h
          exact (code_iff l).1 (Classical.byContradiction fun hn => hc ⟨hn, hs⟩)
        · intro h
          generalize ht : t ++ [l] = t' at h
          cases h with
          | plain _ _ h => exact absurd (ht ▸ h) (hno e)
          | code t' c _ hn _ h =>
            rw [(List.append_inj' ht rfl).1]
            exact h

theorem line_fault (l : Bytes) (c : Nat) (cs strict : Bool) (e : PyErr) :
    decodeLine l c cs strict false = .error e ↔ LineFault cs strict l e := by
  match l with
  | [] =>
    simp only [decodeLine, reduceCtorEq, false_iff]
    intro h
    cases h with
    | direct _ _ hn => exact hn rfl
  | x :: rest =>
    simp only [decodeLine, Bool.false_eq_true, if_false]
    by_cases h1 : x = 0x40
    · subst h1
      rw [if_pos rfl, conf_fault]
      refine ⟨fun h => .basic _ _ h, fun h => ?_⟩
      cases h with
      | basic _ _ h => exact h
      | direct _ _ _ _ h => exact absurd rfl h
    · rw [if_neg h1]
      by_cases h2 : x = 0x5c
      · subst h2
        rw [if_pos rfl, conf_fault]
        refine ⟨fun h => .network _ _ h, fun h => ?_⟩
        cases h with
        | network _ _ h => exact h
        | direct _ _ _ h => exact absurd rfl h
      · rw [if_neg h2, conf_fault]
        refine ⟨fun h => .direct _ _ (by simp) (by simpa using h2) (by simpa using h1) h, fun h => ?_⟩
        cases h with
        | basic => exact absurd rfl h1
        | network => exact absurd rfl h2
        | direct _ _ _ _ _ h => exact h

/-- C102: when reading what was sent to the PCI raises, and what. -/
theorem C102_sent (d : Bytes) (cs strict : Bool) (e : PyErr) :
    decodePacket d cs strict false = .error e ↔ FaultToPci cs strict d e := by
  constructor
  · intro h
    have go : ∀ y, ¬ ToPci cs strict d y := by
      rintro ⟨x, n⟩ hy
      have := (C98_sent d cs strict x n).2 hy
      rw [h] at this
      cases this
    by_cases h1 : d.head? = some 0x7e
    · obtain ⟨rest, rfl⟩ : ∃ rest, d = 0x7e :: rest := by
        cases d with
        | nil => cases h1
        | cons a rest => simp at h1; exact ⟨rest, by rw [h1]⟩
      exact absurd (.reset rest) (go _)
    by_cases h2 : [0x6e, 0x75, 0x6c, 0x6c] <+: d
    · obtain ⟨rest, rfl⟩ := h2
      exact absurd (.null rest) (go _)
    by_cases h3 : (0x0d : UInt8) ∈ d
    · obtain ⟨l, rest, rfl, hl⟩ := split_first h3
      have k1 : l.head? ≠ some 0x7e := by
        intro hl'
        apply h1
        cases l with
        | nil => cases hl'
        | cons a l => exact hl'
      have k2 : ¬ [0x6e, 0x75, 0x6c, 0x6c] <+: l := fun hp => h2 (hp.trans (List.prefix_append _ _))
      by_cases hq : (0x3f : UInt8) ∈ l
      · exfalso
        obtain ⟨t, u, rfl, ht⟩ := split_first hq
        have ht' : t.head? ≠ some 0x7e := by
          intro ht'
          apply k1
          cases t with
          | nil => cases ht'
          | cons a t => exact ht'
        have := ToPci.cancelled (checksum := cs) (strict := strict) t u rest ht'
          (fun hp => k2 (hp.trans (List.prefix_append _ _))) ht (fun hm => hl (by simp [hm])) (fun hm => hl (by simp [hm]))
        rw [show t ++ 0x3f :: (u ++ 0x0d :: rest) = t ++ 0x3f :: u ++ 0x0d :: rest by simp] at this
        exact go _ this
      · by_cases e1 : l = [0x7c]
        · subst e1; exact absurd (.connect rest) (go _)
        by_cases e2 : l = [0x7c, 0x7c]
        · subst e2; exact absurd (.connectTwice rest) (go _)
        unfold decodePacket at h
        rw [if_neg (by simp), frameClient_line_any ⟨hl, hq, k1, k2, e1, e2⟩] at h
        exact .line l rest e k1 k2 hq hl e1 e2 ((line_fault l _ cs strict e).1 h)
    · exact absurd (.waiting d h1 h2 h3) (go _)
  · intro h
    cases h with
    | line l rest _ h1 h2 h3 h4 h5 h6 h =>
      unfold decodePacket
      rw [if_neg (by simp), frameClient_line_any ⟨h4, h3, h1, h2, h5, h6⟩]
      exact (line_fault l _ cs strict e).2 h

/-! ## The line with the time -/

theorem spelled_iff (cs : Bool) (body digits : Bytes) :
    Spelled cs body digits ↔ digits = b16encode (if cs then addChecksum body else body) := by
  cases cs with
  | false =>
    simp only [Spelled, Bool.false_eq_true, if_false, ← b16decode_iff]
    exact C03_base16_inverse _ _
  | true =>
    simp only [Spelled, if_true]
    obtain ⟨-, ⟨x, hx⟩, hz⟩ := C01_checksum_valid body
    constructor
    · rintro ⟨y, h1, h2⟩
      have hxy : y = x := by
        rw [hx] at hz
        simp only [SumsToZero, List.map_append, List.sum_append, List.map_cons, List.map_nil, List.sum_cons,
          List.sum_nil, Nat.add_zero] at hz h2
        have k1 := x.toNat_lt
        have k2 := y.toNat_lt
        apply UInt8.toNat_inj.1
        omega
      subst hxy
      rw [hx]
      exact (C03_base16_inverse _ _).1 ((b16decode_iff _ _).2 h1)
    · intro h
      refine ⟨x, (b16decode_iff _ _).1 ?_, by rw [← hx]; exact hz⟩
      rw [h, hx]
      exact b16decode_b16encode _

theorem clockLine_iff {t : PyDateTime} (ht : DateTimeOk t) (c : UInt8) (line : Bytes) : ClockLine t c line ↔
    line = 0x5c :: b16encode (addChecksum (ClientCall.clockNow.frame t PyDate.weekday)) ++ [c, 0x0d] := by
  constructor
  · rintro ⟨w, digits, h1, h2, rfl⟩
    have e := (isWeekday_unique h1 _ rfl ht.1.2.1).2
    rw [e] at h2
    rw [(spelled_iff true _ _).1 h2]
    rfl
  · rintro rfl
    exact ⟨t.date.weekday, _, isWeekday_weekday _ ht.1, (spelled_iff true _ _).2 rfl, rfl⟩

theorem clockLine_unique {t : PyDateTime} (ht : DateTimeOk t) {c : UInt8} {l1 l2 : Bytes} (h1 : ClockLine t c l1)
    (h2 : ClockLine t c l2) : l1 = l2 := by
  rw [(clockLine_iff ht c l1).1 h1, (clockLine_iff ht c l2).1 h2]

theorem codeAt_eq (k : Nat) : confirmationCodes[k % 20]? = some (codeAt k) := by
  have key : ∀ k : Fin 20, confirmationCodes[k.1]? = some (codeAt k.1) := by decide +kernel
  have := key ⟨k % 20, by omega⟩
  simp only [codeAt, Nat.mod_mod] at this ⊢
  exact this

theorem clockLine_ok (t : PyDateTime) (ht : DateTimeOk t) (c : UInt8) :
    ClockLine t c (0x5c :: b16encode (addChecksum (ClientCall.clockNow.frame t PyDate.weekday)) ++ [c, 0x0d]) :=
  (clockLine_iff ht c _).2 rfl

/-! ## Handlers -/

variable {π : Type}

/-- The client after the given number of confirmation codes and looks at the clock. -/
def clientAt (s : Client) (k : Count) : Client := { s with nextConf := k.codes % 20, clockReads := k.reads }

/-- The handlers of a client are as described. -/
structure Follows (hook : Event → Proc Client (Eff π) Unit) (m : Manner π) (s : Client) : Prop where
  time : ∀ n, DateTimeOk (m.now n)
  clock : m.clock = true → ∀ src k, ∃ line, ClockLine (m.now k.reads) (codeAt k.codes) line ∧
    hook (.clockRequest src) (clientAt s k) = (clientAt s ⟨k.codes + 1, k.reads + 1⟩, [.write line], .ok ())
  noClock : m.clock = false → ∀ src k, hook (.clockRequest src) (clientAt s k) = (clientAt s k, [], .ok ())
  other : ∀ e, (∀ src, e ≠ .clockRequest src) → ∀ k,
    hook e (clientAt s k) = (clientAt s k, (m.says e).map .ext, .ok ())

/-- The handlers are called for the events one after the other. -/
def callAll (hook : Event → Proc Client (Eff π) Unit) : List Event → Proc Client (Eff π) Unit
  | [] => pure ()
  | e :: es => Proc.andThen (Client.call hook e) fun _ => callAll hook es

theorem onSals_callAll (hook : Event → Proc Client (Eff π) Unit) (src : Option Int) : ∀ (l : List SAL) (s : Client),
    Client.onSals hook src l s = callAll hook (l.filterMap (salEvent src)) s := by
  intro l
  induction l with
  | nil => intro s; rfl
  | cons x l ih =>
    intro s
    have hpure : ∀ (f : Unit → Proc Client (Eff π) Unit) s, Proc.andThen (pure ()) f s = f () s := by
      intro f s; simp [Proc.andThen, pure]
    have hk : ∀ e, Proc.andThen (Client.call hook e) (fun _ => Client.onSals hook src l) s =
        Proc.andThen (Client.call hook e) (fun _ => callAll hook (l.filterMap (salEvent src))) s := by
      intro e
      unfold Proc.andThen
      simp only [ih]
    cases x with
    | temperature _ _ => simp only [Client.onSals, Client.onSal, hpure, ih, List.filterMap_cons, salEvent]
    | enableSet _ _ => simp only [Client.onSals, Client.onSal, hpure, ih, List.filterMap_cons, salEvent]
    | statusRequest _ _ _ => simp only [Client.onSals, Client.onSal, hpure, ih, List.filterMap_cons, salEvent]
    | _ => simp only [Client.onSals, Client.onSal, List.filterMap_cons, salEvent, callAll]; exact hk _

theorem onPacket_callAll (hook : Event → Proc Client (Eff π) Unit) (p : Packet) (s : Client) :
    Client.onPacket hook p s = callAll hook (packetEvents p) s := by
  have hone : ∀ e, Client.call hook e s = Proc.andThen (Client.call hook e) (fun _ => pure ()) s := by
    intro e
    unfold Proc.andThen
    rcases Client.call hook e s with ⟨s1, o, r⟩
    cases r <;> simp [pure]
  cases p with
  | pm q => exact onSals_callAll hook q.src q.sals s
  | confirmation c ok => exact hone _
  | pciError => exact hone _
  | _ => rfl

theorem handles_callAll {hook : Event → Proc Client (Eff π) Unit} {m : Manner π} {s : Client} (hf : Follows hook m s) :
    ∀ (es : List Event) (k : Count), ∃ o k', Handles m es k o k' ∧
      callAll hook es (clientAt s k) = (clientAt s k', o, .ok ()) := by
  intro es
  induction es with
  | nil => intro k; exact ⟨[], k, .nil k, rfl⟩
  | cons e es ih =>
    intro k
    by_cases he : ∀ src, e ≠ .clockRequest src
    · obtain ⟨o, k', h1, h2⟩ := ih k
      refine ⟨_, k', .other e es k k' o he h1, ?_⟩
      simp only [callAll, Client.call, Proc.andThen, Proc.emit, hf.other e he k, h2]
      rfl
    · simp only [Classical.not_forall, Classical.not_not] at he
      obtain ⟨src, rfl⟩ := he
      cases hc : m.clock with
      | true =>
        obtain ⟨line, g1, g2⟩ := hf.clock hc src k
        obtain ⟨o, k', h1, h2⟩ := ih ⟨k.codes + 1, k.reads + 1⟩
        refine ⟨_, k', .clock src es k k' line o hc g1 h1, ?_⟩
        simp only [callAll, Client.call, Proc.andThen, Proc.emit, g2, h2]
        rfl
      | false =>
        obtain ⟨o, k', h1, h2⟩ := ih k
        refine ⟨_, k', .noClock src es k k' o hc h1, ?_⟩
        simp only [callAll, Client.call, Proc.andThen, Proc.emit, hf.noClock hc src k, h2]
        rfl

theorem handles_unique {m : Manner π} (hn : ∀ n, DateTimeOk (m.now n)) {es : List Event} {k k1 k2 : Count}
    {o1 o2 : List (Eff π)} (h1 : Handles m es k o1 k1) (h2 : Handles m es k o2 k2) : o1 = o2 ∧ k1 = k2 := by
  induction h1 generalizing o2 k2 with
  | nil => cases h2; exact ⟨rfl, rfl⟩
  | clock src es k k' line o hc hl _ ih =>
    cases h2 with
    | clock _ _ _ _ line' _ _ hl' h2 =>
      obtain ⟨rfl, rfl⟩ := ih h2
      rw [clockLine_unique (hn _) hl hl']
      exact ⟨rfl, rfl⟩
    | noClock _ _ _ _ _ hc' => rw [hc] at hc'; cases hc'
    | other _ _ _ _ _ he => exact absurd rfl (he src)
  | noClock src es k k' o hc _ ih =>
    cases h2 with
    | clock _ _ _ _ _ _ hc' => rw [hc] at hc'; cases hc'
    | noClock _ _ _ _ _ _ h2 =>
      obtain ⟨rfl, rfl⟩ := ih h2
      exact ⟨rfl, rfl⟩
    | other _ _ _ _ _ he => exact absurd rfl (he src)
  | other e es k k' o he _ ih =>
    cases h2 with
    | clock src => exact absurd rfl (he src)
    | noClock src => exact absurd rfl (he src)
    | other _ _ _ _ _ _ h2 =>
      obtain ⟨rfl, rfl⟩ := ih h2
      exact ⟨rfl, rfl⟩

/-! ## The buffer -/

theorem fromPci_some_pos {cs strict : Bool} {d : Bytes} {p : Packet} {n : Nat} (h : FromPci cs strict d (some p, n)) :
    0 < n := by
  cases h <;> omega

theorem fromPci_unique {cs strict : Bool} {d : Bytes} {a b : Option Packet × Nat} (h1 : FromPci cs strict d a)
    (h2 : FromPci cs strict d b) : a = b := by
  have e1 := (C98_received d cs strict a.1 a.2).2 h1
  have e2 := (C98_received d cs strict b.1 b.2).2 h2
  rw [e1] at e2
  injection e2

theorem fromPci_no_fault {cs strict : Bool} {d : Bytes} {a : Option Packet × Nat} {e : PyErr} (h1 : FromPci cs strict d a)
    (h2 : FaultFromPci cs strict d e) : False := by
  have e1 := (C98_received d cs strict a.1 a.2).2 h1
  have e2 := (C102_received d cs strict e).2 h2
  rw [e1] at e2
  cases e2

theorem hears_unique {m : Manner π} (hn : ∀ n, DateTimeOk (m.now n)) {d : Bytes} {k k1 k2 : Count}
    {o1 o2 : List (Eff π)} {b1 b2 : Bytes} {r1 r2 : Py Unit} (h1 : Hears m d k o1 b1 k1 r1) (h2 : Hears m d k o2 b2 k2 r2) :
    o1 = o2 ∧ b1 = b2 ∧ k1 = k2 ∧ r1 = r2 := by
  induction h1 generalizing o2 b2 k2 r2 with
  | waits d k h =>
    cases h2 with
    | waits => exact ⟨rfl, rfl, rfl, rfl⟩
    | fault _ _ _ h' => exact (fromPci_no_fault h h').elim
    | skips _ n _ _ _ _ _ h' hn' =>
      have := fromPci_unique h h'
      injection this with _ this
      exact absurd this.symm hn'
    | message _ p n _ _ _ _ _ _ _ h' => cases fromPci_unique h h'
  | fault d k e h =>
    cases h2 with
    | waits _ _ h' => exact (fromPci_no_fault h' h).elim
    | fault _ _ _ h' =>
      have e1 := (C102_received d true true _).2 h
      have e2 := (C102_received d true true _).2 h'
      rw [e1] at e2
      injection e2 with e2
      exact ⟨rfl, rfl, rfl, by rw [e2]⟩
    | skips _ n _ _ _ _ _ h' => exact (fromPci_no_fault h' h).elim
    | message _ p n _ _ _ _ _ _ _ h' => exact (fromPci_no_fault h' h).elim
  | skips d n k k' o d' r h hn' _ ih =>
    cases h2 with
    | waits _ _ h' =>
      have := fromPci_unique h h'
      injection this with _ this
      exact absurd this hn'
    | fault _ _ _ h' => exact (fromPci_no_fault h h').elim
    | skips _ n' _ _ _ _ _ h' _ h2 =>
      have := fromPci_unique h h'
      injection this with _ this
      subst this
      exact ih h2
    | message _ p n _ _ _ _ _ _ _ h' => cases fromPci_unique h h'
  | message d p n k k1 k2 o1 o2 d' r h ho _ ih =>
    cases h2 with
    | waits _ _ h' => cases fromPci_unique h h'
    | fault _ _ _ h' => exact (fromPci_no_fault h h').elim
    | skips _ n' _ _ _ _ _ h' => cases fromPci_unique h h'
    | message _ p' n' _ _ _ _ _ _ _ h' ho' h2 =>
      have := fromPci_unique h h'
      injection this with e1 e2
      injection e1 with e1
      subst e1 e2
      obtain ⟨rfl, rfl⟩ := handles_unique hn ho ho'
      obtain ⟨rfl, rfl, rfl, rfl⟩ := ih h2
      exact ⟨rfl, rfl, rfl, rfl⟩

theorem hears_process {hook : Event → Proc Client (Eff π) Unit} {m : Manner π} {s : Client} (hf : Follows hook m s) :
    ∀ (n : Nat) (d : Bytes) (k : Count), d.length ≤ n → ∃ o b k' r, Hears m d k o b k' r ∧
      processBuffer (Client.handle hook) d (clientAt s k) = (⟨b, clientAt s k'⟩, o, r) := by
  intro n
  induction n with
  | zero =>
    intro d k hd
    have : d = [] := List.eq_nil_of_length_eq_zero (by omega)
    subst this
    exact ⟨[], [], k, .ok (), .waits [] k ((C98_received _ _ _ _ _).1 rfl), processBuffer_nil _ _⟩
  | succ n ih =>
    intro d k hd
    by_cases hb : d = []
    · exact ih d k (by simp [hb])
    cases hp : decodePacket d true true true with
    | error e =>
      refine ⟨[], d, k, .error e, .fault d k e ((C102_received _ _ _ _).1 hp), processBuffer_error hb ?_⟩
      simp [Client.handle, handleData, hp]
    | ok x =>
      obtain ⟨x, c⟩ := x
      have hg := (C98_received _ _ _ _ _).1 hp
      have hlen := List.length_pos_iff.mpr hb
      by_cases hc : c = 0
      · subst hc
        cases x with
        | some p => exact absurd (fromPci_some_pos hg) (by omega)
        | none =>
          refine ⟨[], d, k, .ok (), .waits d k hg, processBuffer_wait ?_⟩
          simp [Client.handle, handleData, hp, Proc.andThen, pure]
      · have hstep := process_decoded (emu := false) (checksum := fun _ => true) (echo := fun _ => pure ())
          (onPacket := Client.onPacket hook) (s := clientAt s k) hb hp (by omega)
        have hd' : (d.drop c).length ≤ n := by simp only [List.length_drop]; omega
        cases x with
        | none =>
          obtain ⟨o, b, k', r, h1, h2⟩ := ih (d.drop c) k hd'
          refine ⟨o, b, k', r, .skips d c k k' o b r hg hc h1, ?_⟩
          unfold Client.handle at h2 ⊢
          rw [hstep]
          have hA : Proc.andThen (if false = true then pure () else pure ())
              (fun _ => onDecoded (Client.onPacket hook) none) (clientAt s k) = (clientAt s k, [], .ok ()) := rfl
          rw [hA]
          simp only [followedBy, h2, List.nil_append]
        | some p =>
          obtain ⟨o1, k1, g1, g2⟩ := handles_callAll hf (packetEvents p) k
          obtain ⟨o, b, k', r, h1, h2⟩ := ih (d.drop c) k1 hd'
          refine ⟨o1 ++ o, b, k', r, .message d p c k k1 k' o1 o b r hg g1 h1, ?_⟩
          unfold Client.handle at h2 ⊢
          rw [hstep]
          rw [← onPacket_callAll] at g2
          have hA : Proc.andThen (if false = true then pure () else pure ())
              (fun _ => onDecoded (Client.onPacket hook) (some p)) (clientAt s k) = (clientAt s k1, o1, .ok ()) := by
            rw [if_neg (by simp)]
            show (match Client.onPacket hook p (clientAt s k) with | (s2, o2, r) => (s2, [] ++ o2, r)) = _
            rw [g2]
            rfl
          rw [hA]
          simp only [followedBy, h2]

theorem converses_unique {m : Manner π} (hn : ∀ n, DateTimeOk (m.now n)) {b : Bytes} {k k1 k2 : Count} {ds : List Bytes}
    {o1 o2 : List (Eff π)} {b1 b2 : Bytes} {r1 r2 : Py Unit} (h1 : Converses m b k ds o1 b1 k1 r1)
    (h2 : Converses m b k ds o2 b2 k2 r2) : o1 = o2 ∧ b1 = b2 ∧ k1 = k2 ∧ r1 = r2 := by
  induction h1 generalizing o2 b2 k2 r2 with
  | silence => cases h2; exact ⟨rfl, rfl, rfl, rfl⟩
  | huge b k d ds h =>
    cases h2 with
    | huge => exact ⟨rfl, rfl, rfl, rfl⟩
    | overflow => omega
    | ends => omega
    | goesOn => omega
  | overflow b k d ds g1 g2 =>
    cases h2 with
    | huge => omega
    | overflow => exact ⟨rfl, rfl, rfl, rfl⟩
    | ends => omega
    | goesOn => omega
  | ends b k k' d ds o b' e hl h =>
    cases h2 with
    | huge => omega
    | overflow => omega
    | ends _ _ _ _ _ _ _ _ _ h' => exact hears_unique hn h h'
    | goesOn _ _ _ _ _ _ _ _ _ _ _ _ h' => cases (hears_unique hn h h').2.2.2
  | goesOn b k k1 k2 d ds o1 o2 b1 b2 r hl h _ ih =>
    cases h2 with
    | huge => omega
    | overflow => omega
    | ends _ _ _ _ _ _ _ _ _ h' => cases (hears_unique hn h h').2.2.2
    | goesOn _ _ _ _ _ _ _ _ _ _ _ _ h' hr' =>
      obtain ⟨rfl, rfl, rfl, -⟩ := hears_unique hn h h'
      obtain ⟨rfl, rfl, rfl, rfl⟩ := ih hr'
      exact ⟨rfl, rfl, rfl, rfl⟩

theorem converses_feed {hook : Event → Proc Client (Eff π) Unit} {m : Manner π} {s : Client} (hf : Follows hook m s) :
    ∀ (ds : List Bytes) (b : Bytes) (k : Count), ∃ o b' k' r, Converses m b k ds o b' k' r ∧
      feed maxBufferSize (Client.handle hook) ds ⟨b, clientAt s k⟩ = (⟨b', clientAt s k'⟩, o, r) := by
  intro ds
  induction ds with
  | nil => intro b k; exact ⟨[], b, k, .ok (), .silence b k, rfl⟩
  | cons d ds ih =>
    intro b k
    obtain ⟨q1, q2, q3⟩ := C39_overflow 256 (Client.handle hook) d ⟨b, clientAt s k⟩
    have e : maxBufferSize = 256 := rfl
    simp only [feed, Proc.andThen, e]
    rcases Nat.lt_or_ge 256 d.length with h | h
    · rw [q1 h]
      exact ⟨_, _, _, _, .huge b k d ds h, rfl⟩
    rcases Nat.lt_or_ge 256 (b.length + d.length) with h' | h'
    · rw [q2 h h']
      exact ⟨_, _, _, _, .overflow b k d ds h h', rfl⟩
    rw [q3 h']
    obtain ⟨o1, b1, k1, r1, h1, h2⟩ := hears_process hf (b ++ d).length (b ++ d) k (Nat.le_refl _)
    simp only [h2]
    cases r1 with
    | error er => exact ⟨_, _, _, _, .ends b k k1 d ds o1 b1 er h' h1, rfl⟩
    | ok u =>
      obtain ⟨o, b', k', r, h3, h4⟩ := ih b1 k1
      rw [e] at h4
      refine ⟨o1 ++ o, b', k', r, .goesOn b k k1 k' d ds o1 o b1 b' r h' h1 h3, ?_⟩
      simp only [h4]

/-- C102: whatever is received, in whatever pieces, the client does what is written down
and nothing else, for handlers that do what they should. -/
theorem C102_client {hook : Event → Proc Client (Eff π) Unit} {m : Manner π} {s : Client} (hf : Follows hook m s)
    (hk : s.nextConf < 20) (b : Bytes) (ds : List Bytes) (c : Conn Client) (o : List (Eff π)) (r : Py Unit) :
    feed maxBufferSize (Client.handle hook) ds ⟨b, s⟩ = (c, o, r) ↔
      ∃ k, Converses m b ⟨s.nextConf, s.clockReads⟩ ds o c.buf k r ∧
        c.st = { s with nextConf := k.codes % 20, clockReads := k.reads } := by
  have hs : clientAt s ⟨s.nextConf, s.clockReads⟩ = s := by
    unfold clientAt
    simp only [Nat.mod_eq_of_lt hk]
  obtain ⟨o', b', k', r', h1, h2⟩ := converses_feed hf ds b ⟨s.nextConf, s.clockReads⟩
  rw [hs] at h2
  rw [h2]
  constructor
  · intro h
    simp only [Prod.mk.injEq] at h
    obtain ⟨rfl, rfl, rfl⟩ := h
    exact ⟨k', h1, rfl⟩
  · rintro ⟨k, h3, h4⟩
    obtain ⟨rfl, rfl, rfl, rfl⟩ := converses_unique hf.time h1 h3
    obtain ⟨cb, cs⟩ := c
    simp only at h4
    subst h4
    rfl

theorem clock_answer (now : Nat → PyDateTime) (hnow : ∀ n, DateTimeOk (now n)) (s : Client) (hc : s.connected = true)
    (k : Count) : ∃ line, ClockLine (now k.reads) (codeAt k.codes) line ∧
      Client.clockDatetime (π := π) now none (clientAt s k) =
        (clientAt s ⟨k.codes + 1, k.reads + 1⟩, [.write line], .ok (some (codeAt k.codes))) := by
  refine ⟨_, clockLine_ok _ (hnow _) _, ?_⟩
  have := clockNow_run (π := π) now hnow (clientAt s k) hc (codeAt k.codes) (codeAt_eq k.codes)
  rw [this]
  have e : ({ clientAt s k with nextConf := (k.codes % 20 + 1) % 20, clockReads := k.reads + 1 } : Client) =
      clientAt s ⟨k.codes + 1, k.reads + 1⟩ := by
    unfold clientAt
    simp only
    congr 1
    omega
  simp only [← e]
  rfl

theorem follows_base (now : Nat → PyDateTime) (hnow : ∀ n, DateTimeOk (now n)) (s : Client) (hc : s.connected = true) :
    Follows (π := π) (Client.baseHook now) ⟨s.handleClock, fun _ => [], now⟩ s where
  time := hnow
  clock := by
    intro h src k
    obtain ⟨line, h1, h2⟩ := clock_answer (π := π) now hnow s hc k
    refine ⟨line, h1, ?_⟩
    have hh : (clientAt s k).handleClock = true := h
    simp only [Client.baseHook, hh, if_true, Proc.andThen, h2, pure, List.append_nil]
  noClock := by
    intro h src k
    have hh : (clientAt s k).handleClock = false := h
    simp [Client.baseHook, hh]
  other := by
    intro e he k
    cases e with
    | clockRequest src => exact absurd rfl (he src)
    | _ => rfl

theorem follows_daemon (now : Nat → PyDateTime) (hnow : ∀ n, DateTimeOk (now n)) (s : Client) (hc : s.connected = true) :
    Follows (Mqtt.cbusHook now) ⟨true, fun e => if s.mqttApi then eventMessages e else [], now⟩ s where
  time := hnow
  clock := by
    intro h src k
    obtain ⟨line, h1, h2⟩ := clock_answer (π := MqttEff) now hnow s hc k
    refine ⟨line, h1, ?_⟩
    simp only [Mqtt.cbusHook, Proc.andThen, h2, pure, List.append_nil]
  noClock := by intro h; cases h
  other := by
    intro e he k
    rw [C62_event now e he]
    have : (clientAt s k).mqttApi = s.mqttApi := rfl
    simp only [this]
    split <;> rfl

/-- C102 for a `PCIProtocol`: it answers requests for the time if it is told to. -/
theorem C102_protocol (now : Nat → PyDateTime) (hnow : ∀ n, DateTimeOk (now n)) (s : Client) (hu : Up s) (b : Bytes)
    (ds : List Bytes) (c : Conn Client) (o : List (Eff π)) (r : Py Unit) :
    feed maxBufferSize (Client.handle (Client.baseHook now)) ds ⟨b, s⟩ = (c, o, r) ↔
      ∃ k, Converses ⟨s.handleClock, fun _ => [], now⟩ b ⟨s.nextConf, s.clockReads⟩ ds o c.buf k r ∧
        c.st = { s with nextConf := k.codes % 20, clockReads := k.reads } :=
  C102_client (follows_base now hnow s hu.1) hu.2 b ds c o r

/-- C102 for the daemon: it always answers requests for the time (see C49), and publishes
the messages of C62 if it is connected to the broker. -/
theorem C102_daemon (now : Nat → PyDateTime) (hnow : ∀ n, DateTimeOk (now n)) (s : Client) (hu : Up s) (b : Bytes)
    (ds : List Bytes) (c : Conn Client) (o : List (Eff MqttEff)) (r : Py Unit) :
    feed maxBufferSize (Client.handle (Mqtt.cbusHook now)) ds ⟨b, s⟩ = (c, o, r) ↔
      ∃ k, Converses ⟨true, fun e => if s.mqttApi then eventMessages e else [], now⟩ b ⟨s.nextConf, s.clockReads⟩ ds o
          c.buf k r ∧
        c.st = { s with nextConf := k.codes % 20, clockReads := k.reads } :=
  C102_client (follows_daemon now hnow s hu.1) hu.2 b ds c o r

/-- A request for the time in two pieces with a confirmation behind it, then a line that
cannot be read: one event, one line with the time, one more event, and the end. -/
example : ∃ k line, Converses (π := Unit) ⟨true, fun _ => [], fun _ => someTime⟩ [] ⟨19, 0⟩
    [ascii "0505DF00", ascii "110303\r\nh.05", ascii "0\r\n", ascii "05053800790144\r\n"]
    [.event (.clockRequest (some 5)), .write line, .event (.confirmation [0x68] true)] (ascii "050\r\n") k
    (.error .binasciiError) ∧ k.codes % 20 = 0 ∧ k.reads = 1 ∧ ClockLine someTime 0x67 line := by
  have hl := clockLine_ok someTime someTime_ok 0x67
  obtain ⟨k, h1, h2⟩ := (C102_protocol (π := Unit) (fun _ => someTime) (fun _ => someTime_ok)
    { connected := true, nextConf := 19 } ⟨rfl, by decide⟩ [] _ ⟨_, { connected := true, clockReads := 1 }⟩ _ _).1
    (show feed maxBufferSize (Client.handle (Client.baseHook fun _ => someTime))
      [ascii "0505DF00", ascii "110303\r\nh.05", ascii "0\r\n", ascii "05053800790144\r\n"]
      ⟨[], { connected := true, nextConf := 19 }⟩ = (⟨ascii "050\r\n", { connected := true, clockReads := 1 }⟩,
        [.event (.clockRequest (some 5)), .write (0x5c :: b16encode (addChecksum
          (ClientCall.clockNow.frame someTime PyDate.weekday)) ++ [0x67, 0x0d]), .event (.confirmation [0x68] true)],
        .error .binasciiError) by decide +kernel)
  injection h2 with _ e1 _ _ _ e2
  exact ⟨k, _, h1, e1.symm, e2.symm, hl⟩

end CBus.Props
