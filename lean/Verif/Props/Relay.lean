import Verif.Props.Grammar
import Verif.Props.Writing
import Verif.Props.RoundTrip

/-! # C153: a packet that was received can be sent on

What `decode_packet` returns has an `encode_packet` of its own. A program that passes on
what it receives, or keeps it for later, relies on getting the same packet back. -/

namespace CBus.Props
open CBus CBus.Spec

/-- The claim C153: everything that is received from a PCI is written as characters that are
read as the same packet, and as nothing else. -/
def C153_claim : Prop :=
  ∀ (d : Bytes) (cs strict : Bool) (q : Packet) (n : Nat),
    decodePacket d cs strict true = .ok (some q, n) → isMessage q = true →
    ∃ w, q.encodePacket = .ok w ∧
      ∀ rest, decodePacket (w ++ 0x0d :: 0x0a :: rest) cs strict true = .ok (some q, w.length + 2)

theorem quantise_rate (k : Nat) (d : Int) (h : rampDurations[k]? = some d) : quantise d = d := by
  have h1 : ∀ d ∈ rampDurations, quantise d = d := by decide
  exact h1 d (List.mem_of_getElem? h)

theorem quarter_floor (t : Nat) : floorQuarter ((t : Rat) / 4) = (t : Rat) / 4 := by
  unfold floorQuarter
  have h : (t : Rat) / 4 * 4 = ((t : Int) : Rat) := Rat.div_mul_cancel (by decide)
  rw [h, Rat.floor_intCast]
  rfl

theorem byte_isByte (b : UInt8) : IsByte (b.toNat : Int) := by
  have := b.toNat_lt
  unfold IsByte
  omega

theorem byte_mod (b : UInt8) : (b.toNat : Int) % 256 = b.toNat := by
  have := b.toNat_lt
  omega

theorem quarter_ok (t : UInt8) : TempOk (.flt ((t.toNat : Rat) / 4)) := by
  unfold TempOk
  show 0 ≤ (t.toNat : Rat) / 4 ∧ (t.toNat : Rat) / 4 ≤ 255 / 4
  have h : ∀ n : Nat, n < 256 → 0 ≤ (n : Rat) / 4 ∧ (n : Rat) / 4 ≤ 255 / 4 := by decide +kernel
  exact h _ t.toNat_lt

/-- What is read as a command is well formed and on the grid of values that can be sent. -/
theorem command_received {a : AppHandler} {d rest : Bytes} {s : SAL} (h : Command a d (some s) rest) :
    SalOk s ∧ received s = s := by
  cases h with
  | lightOn ga => exact ⟨byte_isByte ga, rfl⟩
  | lightOff ga => exact ⟨byte_isByte ga, rfl⟩
  | lightTerminate ga => exact ⟨byte_isByte ga, rfl⟩
  | lightRamp k d cmd ga level _ hd hc =>
    exact ⟨⟨byte_isByte ga, byte_isByte level⟩, by simp only [received, quantise_rate k d hd]⟩
  | temperature cmd ga t =>
    refine ⟨⟨byte_isByte ga, quarter_ok t⟩, ?_⟩
    simp only [received, numValue, Option.getD_some, quarter_floor]
  | enable cmd var val => exact ⟨trivial, by simp only [received, byte_mod]⟩
  | binaryRequest c app ga _ _ hg =>
    refine ⟨trivial, ?_⟩
    simp only [received, byte_mod]
    congr 1
    omega
  | levelRequest app ga _ hg =>
    refine ⟨trivial, ?_⟩
    simp only [received, byte_mod]
    congr 1
    omega
  | date yh yl m d w _ h => exact ⟨h, rfl⟩
  | time h m s dst _ hv => exact ⟨⟨hv.1, hv.2.1, hv.2.2, Nat.zero_lt_succ _⟩, rfl⟩
  | request => exact ⟨trivial, rfl⟩

theorem reads_received {a : AppHandler} {d : Bytes} {r : Py (List SAL)} (h : Reads a d r) :
    ∀ sals, r = .ok sals → ∀ s ∈ sals, SalOk s ∧ received s = s := by
  induction h with
  | command d s rest r h hr ih =>
    intro sals e
    cases r with
    | error e' => exact nomatch e
    | ok l =>
      have e : s.toList ++ l = sals := by injection e
      subst e
      intro x hx
      rcases List.mem_append.1 hx with hx | hx
      · have hx : s = some x := by simpa using hx
        subst hx
        exact command_received h
      · exact ih l rfl x hx
  | refused => intro _ e; exact nomatch e
  | stop d h1 h2 =>
    intro sals e
    have e : [] = sals := by injection e
    subst e
    intro _ hs
    exact nomatch hs

theorem levelsOf_ok {d : Bytes} {ls : List (Option Int)} (h : LevelsOf d ls) :
    (∀ l ∈ ls, LevelOk l) ∧ 2 * ls.length = d.length := by
  induction h with
  | nil => exact ⟨by simp, rfl⟩
  | cons b0 b1 rest l ls h hr ih =>
    refine ⟨fun x hx => ?_, by simp only [List.length_cons]; omega⟩
    rcases List.mem_cons.1 hx with rfl | hx
    · rcases h with ⟨v, hv, _, e⟩ | ⟨_, e⟩
      · rw [e]
        show 0 ≤ (v : Int) ∧ (v : Int) < 256
        omega
      · rw [e]; trivial
    · exact ih.1 x hx

theorem states_length (d : Bytes) : (d.flatMap statesOf).length = 4 * d.length := by
  induction d with
  | nil => rfl
  | cons b d ih =>
    rw [List.flatMap_cons, List.length_append, ih]
    simp only [statesOf, List.length_map, List.length_cons, List.length_nil]
    omega

theorem calAt_ok {d : Bytes} {c : CAL} {n : Nat} (h : CalAt d c n) : CalOk c := by
  cases h with
  | identify a _ h => exact ⟨by omega, by omega⟩
  | recall p c => exact ⟨byte_isByte p, byte_isByte c⟩
  | reply n p data _ h hl => exact ⟨byte_isByte p, by omega⟩
  | binary n coding app blk data _ h hc =>
    have := n.toNat_lt
    refine ⟨byte_isByte app, byte_isByte blk, ?_, ?_⟩
    · show (data.flatMap statesOf).length % 4 = 0
      rw [states_length]; omega
    · show ((data.flatMap statesOf).length + 3) / 4 ≤ 28
      rw [states_length]; omega
  | level n coding app blk data _ ls h hc hl =>
    have := n.toNat_lt
    have h2 := levelsOf_ok hl
    exact ⟨byte_isByte app, byte_isByte blk, h2.1, by show 2 * ls.length ≤ 28; omega⟩

theorem calsAt_ok {d : Bytes} {r : Py (List CAL)} (h : CalsAt d r) : ∀ cals, r = .ok cals → ∀ c ∈ cals, CalOk c := by
  induction h with
  | nil =>
    intro cals e
    have e : [] = cals := by injection e
    subst e
    intro _ hc
    exact nomatch hc
  | cons d c n r h hr ih =>
    intro cals e
    cases r with
    | error e' => exact nomatch e
    | ok l =>
      have e : c :: l = cals := by injection e
      subst e
      intro x hx
      rcases List.mem_cons.1 hx with rfl | hx
      · exact calAt_ok h
      · exact ih l rfl x hx
  | refused => intro _ e; exact nomatch e

/-- The route of a packet, if it is one that goes through bridges. -/
def isBridged : Packet → Bool
  | .pp p => p.bridged
  | _ => false

/-- What is known of a payload that was read. -/
def Sound (cs : Bool) : Packet → Prop
  | .pm p => p.checksum = cs ∧ PmOk p ∧ p.sals.map received = p.sals ∧ p.conf = none
  | .pp p => p.checksum = cs ∧ IsByte p.unit ∧ (∀ c ∈ p.cals, CalOk c) ∧ (p.bridged = false → p.hops = []) ∧ p.conf = none
  | .dm p => p.checksum = cs ∧ p.parameter % 256 = p.parameter ∧ p.value % 256 = p.value ∧ p.conf = none
  | _ => True

theorem pmAt_sound {cs : Bool} {prio : Prio} {d : Bytes} {p : PM} (h : PmAt cs prio d (.ok p)) : Sound cs (.pm p) := by
  generalize hr : (Except.ok p : Py PM) = r at h
  cases h with
  | packet a rest hd hh sals hs ha =>
    injection hr with hr
    subst hr
    have h1 := reads_received hs sals rfl
    refine ⟨rfl, ⟨by rw [hh]; rfl, fun s hs' => ⟨(h1 s hs').1, ha s hs'⟩⟩, ?_, rfl⟩
    show sals.map received = sals
    rw [List.map_congr_left (g := id) (fun s hs' => (h1 s hs').2), List.map_id]
  | _ => exact nomatch hr

theorem ppAt_sound {cs : Bool} {prio : Prio} {d : Bytes} {p : PP} (h : PpAt cs prio d (.ok p)) : Sound cs (.pp p) := by
  generalize hr : (Except.ok p : Py PP) = r at h
  cases h with
  | direct u rest r' hc =>
    cases r' with
    | error e => exact nomatch hr
    | ok l =>
      injection hr with hr
      subst hr
      exact ⟨rfl, byte_isByte u, calsAt_ok hc l rfl, fun _ => rfl, rfl⟩
  | bridged b r hops u rest hb hn h cals hc =>
    injection hr with hr
    subst hr
    exact ⟨rfl, byte_isByte u, calsAt_ok hc cals rfl, fun e => (by simp at e), rfl⟩
  | _ => exact nomatch hr

theorem dmAt_sound {cs : Bool} {prio : Prio} {d : Bytes} {p : DM} (h : DmAt cs prio d (.ok p)) : Sound cs (.dm p) := by
  generalize hr : (Except.ok p : Py DM) = r at h
  cases h with
  | packet p v =>
    injection hr with hr
    subst hr
    exact ⟨rfl, byte_mod p, byte_mod v, rfl⟩
  | _ => exact nomatch hr

theorem payload_sound {cs direct : Bool} {flags : UInt8} {d : Bytes} {p : Packet} {n : Nat}
    (h : PayloadAt cs direct flags d (.ok (p, n))) : Sound cs p := by
  generalize hr : (Except.ok (p, n) : Py (Packet × Nat)) = r at h
  cases h with
  | dm r' hf h =>
    cases r' with
    | error e => exact nomatch hr
    | ok x => injection hr with hr; injection hr with hr _; subst hr; exact dmAt_sound h
  | cal c n' => injection hr with hr; injection hr with hr _; subst hr; exact trivial
  | calRefused => exact nomatch hr
  | pp r' hf _ _ h =>
    cases r' with
    | error e => exact nomatch hr
    | ok x => injection hr with hr; injection hr with hr _; subst hr; exact ppAt_sound h
  | pm r' hf _ _ h =>
    cases r' with
    | error e => exact nomatch hr
    | ok x => injection hr with hr; injection hr with hr _; subst hr; exact pmAt_sound h
  | other => exact nomatch hr

/-- A message with a source and no bridges can be written, and is read back. -/
theorem sound_event {cs : Bool} {p : Packet} (h : Sound cs p) (src : UInt8) (hs : src ≠ 0) (hb : isBridged p = false)
    (hm : ∃ o, sourceOf p = some o) :
    ∃ w, (addressed (some (src.toNat : Int)) none p).encodePacket = .ok w ∧
      ∀ rest strict, decodePacket (w ++ 0x0d :: 0x0a :: rest) cs strict true =
        .ok (some (addressed (some (src.toNat : Int)) none p), w.length + 2) := by
  have hsrc : 1 ≤ (src.toNat : Int) ∧ (src.toNat : Int) ≤ 255 := by
    have := src.toNat_lt
    have : src.toNat ≠ 0 := fun e => hs (by simpa using UInt8.toNat_inj.1 (e.trans (by rfl : 0 = (0 : UInt8).toNat)))
    omega
  cases p with
  | pm p =>
    obtain ⟨rfl, h2, h3, h4⟩ := h
    obtain ⟨w, e1, e2⟩ := C26_event { p with src := some (src.toNat : Int), conf := none } h2 _ rfl hsrc
    refine ⟨w, e1, fun rest strict => ?_⟩
    have := e2 rest strict
    simp only [h3] at this
    exact this
  | pp p =>
    obtain ⟨rfl, h2, h3, h4, h5⟩ := h
    obtain ⟨w, e1, e2⟩ := C28_event { p with src := some (src.toNat : Int), conf := none } h2 hb (h4 hb) h3 _ rfl hsrc
    exact ⟨w, e1, e2⟩
  | dm p =>
    obtain ⟨rfl, h2, h3, h4⟩ := h
    refine ⟨_, rfl, fun rest strict => ?_⟩
    obtain ⟨w, e1, e2⟩ := C30_event { p with src := some (src.toNat : Int), conf := none } _ rfl hsrc rest strict
    injection e1 with e1
    subst e1
    simp only [h2, h3] at e2
    exact e2
  | _ => obtain ⟨o, ho⟩ := hm; exact nomatch ho

theorem line_event {cs strict : Bool} {l : Bytes} {r : Packet × Nat} (h : LineFromPci cs strict l r)
    (hi : ∀ b e, r.1 ≠ .invalid b e) :
    ∃ (flags src : UInt8) (d : Bytes) (p : Packet) (n : Nat), PayloadAt cs false flags d (.ok (p, n)) ∧
      r.1 = addressed (if src = 0 then none else some (src.toNat : Int)) none p := by
  have key : ∀ m, EventAt cs m r → ∃ (flags src : UInt8) (d : Bytes) (p : Packet) (n : Nat), PayloadAt cs false flags d (.ok (p, n)) ∧
      r.1 = addressed (if src = 0 then none else some (src.toNat : Int)) none p := by
    intro m h
    cases h with
    | type => exact absurd rfl (hi _ _)
    | short => exact absurd rfl (hi _ _)
    | refused => exact absurd rfl (hi _ _)
    | packet flags src d h p n hp => exact ⟨flags, src, d, p, n, hp, rfl⟩
  cases h with
  | text => exact absurd rfl (hi _ _)
  | digits m _ hp hm =>
    cases hm with
    | unchecked _ _ _ h => exact key _ h
    | wrong => exact absurd rfl (hi _ _)
    | checked m x _ _ _ h => exact key _ h

theorem addressed_source (o : Option Int) (conf : Option UInt8) (p : Packet) :
    sourceOf (addressed o conf p) = (sourceOf p).map fun _ => o := by
  cases p <;> rfl

theorem addressed_bridged (o : Option Int) (conf : Option UInt8) (p : Packet) :
    isBridged (addressed o conf p) = isBridged p := by
  cases p <;> rfl

/-- C153, the part that holds: every message that is received with a source address other
than 0 and not through bridges can be written, and is read as the same packet, whatever follows
it. Missing: messages that came through bridges, which cannot be written, and those whose source
is 0, which are written without one. -/
theorem C153_partial (d : Bytes) (cs strict : Bool) (q : Packet) (n : Nat)
    (h : decodePacket d cs strict true = .ok (some q, n)) (src : Int) (hs : sourceOf q = some (some src))
    (hb : isBridged q = false) :
    ∃ w, q.encodePacket = .ok w ∧
      ∀ rest strict', decodePacket (w ++ 0x0d :: 0x0a :: rest) cs strict' true = .ok (some q, w.length + 2) := by
  replace h := (C98_received d cs strict _ n).1 h
  cases h with
  | powerOn => exact nomatch hs
  | error => exact nomatch hs
  | confirmed => exact nomatch hs
  | refused => exact nomatch hs
  | line l rest r hl hh h =>
    obtain ⟨flags, s, d, p, k, h1, h2⟩ := line_event h (by intro b e h; rw [h] at hs; exact nomatch hs)
    rw [h2] at hs hb ⊢
    rw [addressed_source] at hs
    rw [addressed_bridged] at hb
    obtain ⟨o, h3, h4⟩ := Option.map_eq_some_iff.1 hs
    have h0 : s ≠ 0 := by
      intro h0
      rw [if_pos h0] at h4
      exact nomatch h4
    rw [if_neg h0]
    exact sound_event (payload_sound h1) s h0 hb ⟨o, h3⟩

/-- The confirmation code that a message asks for. -/
def confirmationOf : Packet → Option UInt8
  | .pm p => p.conf
  | .pp p => p.conf
  | .dm p => p.conf
  | _ => none

/-- Whether a message has a checksum. -/
def summed : Packet → Bool
  | .pm p => p.checksum
  | .pp p => p.checksum
  | .dm p => p.checksum
  | _ => false

/-- A command without bridges can be written, and is read back. -/
theorem sound_command {cs : Bool} {p : Packet} (h : Sound cs p) (conf : Option UInt8)
    (hc : ∀ c, conf = some c → c ∈ confirmationCodes) (hb : isBridged p = false) (hm : ∃ o, sourceOf p = some o) :
    summed (addressed none conf p) = cs ∧ confirmationOf (addressed none conf p) = conf ∧
    ∃ w, (addressed none conf p).encodePacket = .ok w ∧
      ∀ rest strict, decodePacket (0x5c :: w ++ conf.toList ++ 0x0d :: rest) cs strict false =
        .ok (some (addressed none conf p), 1 + w.length + conf.toList.length + 1) := by
  cases p with
  | pm p =>
    obtain ⟨rfl, h2, h3, h4⟩ := h
    obtain ⟨w, e1, e2⟩ := C25_command { p with src := none, conf := conf } h2 rfl
    refine ⟨rfl, rfl, w, e1, fun rest strict => ?_⟩
    have := e2 conf rest strict hc
    simp only [h3] at this
    exact this
  | pp p =>
    obtain ⟨rfl, h2, h3, h4, h5⟩ := h
    obtain ⟨w, e1, e2⟩ := C28_command { p with src := none, conf := conf } h2 hb (h4 hb) h3 rfl
    exact ⟨rfl, rfl, w, e1, fun rest strict => e2 conf rest strict hc⟩
  | dm p =>
    obtain ⟨rfl, h2, h3, h4⟩ := h
    refine ⟨rfl, rfl, _, rfl, fun rest strict => ?_⟩
    obtain ⟨w, e1, e2⟩ := C30_command { p with src := none, conf := conf } rfl true conf rest strict hc
    injection e1 with e1
    subst e1
    simp only [h2, h3, if_true] at e2
    exact e2
  | _ => obtain ⟨o, ho⟩ := hm; exact nomatch ho

theorem conf_command {cs direct : Bool} {l : Bytes} {r : Packet × Nat} (h : ConfAt cs true direct l r)
    (hi : ∀ b e, r.1 ≠ .invalid b e) :
    ∃ flags d p n conf, PayloadAt cs direct flags d (.ok (p, n)) ∧ r.1 = addressed none conf p ∧
      ∀ c, conf = some c → c ∈ confirmationCodes := by
  have key : ∀ conf m, CommandAt cs direct conf m r → ∃ flags d p n, PayloadAt cs direct flags d (.ok (p, n)) ∧
      r.1 = addressed none conf p := by
    intro conf m h
    cases h with
    | type => exact absurd rfl (hi _ _)
    | refused => exact absurd rfl (hi _ _)
    | packet flags d h p n hp => exact ⟨flags, d, p, n, hp, rfl⟩
  have key2 : ∀ conf t, TextAt (MessageAt cs true (CommandAt cs direct conf)) t r →
      ∃ flags d p n, PayloadAt cs direct flags d (.ok (p, n)) ∧ r.1 = addressed none conf p := by
    intro conf t h
    cases h with
    | text => exact absurd rfl (hi _ _)
    | digits m _ hp hm =>
      cases hm with
      | unchecked _ _ _ h => exact key _ _ h
      | wrong => exact absurd rfl (hi _ _)
      | checked m x _ _ _ h => exact key _ _ h
  cases h with
  | plain _ c _ hl h hm =>
    obtain ⟨flags, d, p, n, h1, h2⟩ := key2 none _ hm
    exact ⟨flags, d, p, n, none, h1, h2, fun _ e => nomatch e⟩
  | code t c _ h hc hm =>
    obtain ⟨flags, d, p, n, h1, h2⟩ := key2 (some c) _ hm
    refine ⟨flags, d, p, n, some c, h1, h2, fun c' e => ?_⟩
    injection e with e
    subst e
    exact (code_iff c).2 (hc rfl)
  | badCode => exact absurd rfl (hi _ _)

/-- C153 for commands, the part that holds: every command to the PCI with a message that does not go through
bridges can be written, and with its confirmation code is read as the same packet. -/
theorem C153_command_partial (d : Bytes) (cs : Bool) (q : Packet) (n : Nat)
    (h : decodePacket d cs true false = .ok (some q, n)) (hm : ∃ o, sourceOf q = some o) (hb : isBridged q = false) :
    ∃ w, q.encodePacket = .ok w ∧
      ∀ rest strict, decodePacket (0x5c :: w ++ (confirmationOf q).toList ++ 0x0d :: rest) (summed q) strict false =
        .ok (some q, 1 + w.length + (confirmationOf q).toList.length + 1) := by
  have key : ∀ (cs direct : Bool) (l : Bytes) (r : Packet × Nat), r.1 = q → ConfAt cs true direct l r →
      ∃ w, q.encodePacket = .ok w ∧
      ∀ rest strict, decodePacket (0x5c :: w ++ (confirmationOf q).toList ++ 0x0d :: rest) (summed q) strict false =
        .ok (some q, 1 + w.length + (confirmationOf q).toList.length + 1) := by
    intro cs direct l r hr h
    obtain ⟨o, hm⟩ := hm
    obtain ⟨flags, d, p, k, conf, h1, h2, hc⟩ :=
      conf_command h (by intro b e h; rw [hr] at h; rw [h] at hm; exact nomatch hm)
    rw [← hr, h2, addressed_source] at hm
    rw [← hr, h2, addressed_bridged] at hb
    obtain ⟨o', h3, h4⟩ := Option.map_eq_some_iff.1 hm
    obtain ⟨h5, h6, h7⟩ := sound_command (payload_sound h1) conf hc hb ⟨o', h3⟩
    rw [← hr, h2, h5, h6]
    exact h7
  replace h := (C98_sent d cs true _ n).1 h
  cases h with
  | reset => obtain ⟨o, hm⟩ := hm; exact nomatch hm
  | connect => obtain ⟨o, hm⟩ := hm; exact nomatch hm
  | connectTwice => obtain ⟨o, hm⟩ := hm; exact nomatch hm
  | line l rest r _ _ _ _ _ _ h =>
    cases h with
    | network t _ h => exact key _ _ _ r rfl h
    | basic t _ h => exact key _ _ _ r rfl h
    | direct _ _ _ _ h => exact key _ _ _ r rfl h

/-- C27 for everything that can be received: a message that carries a source has the one that the third
and fourth characters spell, except that 00 is no source. -/
theorem C27_every_partial (d : Bytes) (cs strict : Bool) (q : Packet) (n : Nat) (o : Option Int)
    (h : decodePacket d cs strict true = .ok (some q, n)) (ho : sourceOf q = some o) :
    ∃ x y a b rest, d = x :: y :: a :: b :: rest ∧ HexDigit a ∧ HexDigit b ∧
      o = if 16 * digitOf a + digitOf b = 0 then none else some ((16 * digitOf a + digitOf b : Nat) : Int) := by
  replace h := (C98_received d cs strict _ n).1 h
  cases h with
  | powerOn => exact nomatch ho
  | error => exact nomatch ho
  | confirmed => exact nomatch ho
  | refused => exact nomatch ho
  | line l rest r hl hh h =>
    have hi : ∀ b e, r.1 ≠ .invalid b e := by intro b e h; rw [h] at ho; exact nomatch ho
    have key : ∀ m m', HexPairs l (m ++ m') → EventAt cs m r →
        ∃ x y a b rest', l ++ 0x0d :: 0x0a :: rest = x :: y :: a :: b :: rest' ∧ HexDigit a ∧ HexDigit b ∧
        o = if 16 * digitOf a + digitOf b = 0 then none else some ((16 * digitOf a + digitOf b : Nat) : Int) := by
      intro m m' hp h
      cases h with
      | type => exact absurd rfl (hi _ _)
      | short => exact absurd rfl (hi _ _)
      | refused => exact absurd rfl (hi _ _)
      | packet flags src d h p n hq =>
        cases hp with
        | cons x y _ t _ _ _ _ hp =>
          cases hp with
          | cons a b _ t _ ha hb hs hp =>
            refine ⟨x, y, a, b, _, rfl, ha, hb, ?_⟩
            rw [addressed_source] at ho
            obtain ⟨o', h3, h4⟩ := Option.map_eq_some_iff.1 ho
            rw [← h4, ← hs]
            by_cases h0 : src = 0
            · rw [if_pos h0, if_pos (by rw [h0]; rfl)]
            · rw [if_neg h0, if_neg (fun e => h0 (by simpa using UInt8.toNat_inj.1 (e.trans (by rfl : 0 = (0 : UInt8).toNat))))]
    cases h with
    | text => exact absurd rfl (hi _ _)
    | digits m _ hp hm =>
      cases hm with
      | unchecked _ _ _ h => exact key m [] (by rwa [List.append_nil]) h
      | wrong => exact absurd rfl (hi _ _)
      | checked m x _ _ _ h => exact key m [x] hp h

/-- Lighting commands one after the other and nothing else, and what they say. -/
inductive Complete : Bytes → List SAL → Prop
  | nil : Complete [] []
  | cons (d rest : Bytes) (s : SAL) (sals : List SAL) (h : Command .lighting d (some s) rest) (hr : Complete rest sals) :
      Complete d (s :: sals)

theorem complete_written {d : Bytes} {sals : List SAL} (h : Complete d sals) :
    SalsWritten sals (.ok (d.map UInt8.toNat)) ∧ SalsFor 0x38 sals ∧ sals.map received = sals := by
  induction h with
  | nil => exact ⟨.nil, fun _ h => (nomatch h), rfl⟩
  | cons d rest s sals h hr ih =>
    have h0 := command_received h
    obtain ⟨i1, i2, i3⟩ := ih
    suffices hs : s.application = 0x38 ∧ ∃ b, SalWritten s (.ok b) ∧ d.map UInt8.toNat = b ++ rest.map UInt8.toNat by
      obtain ⟨ha, b, h1, h2⟩ := hs
      refine ⟨h2 ▸ .cons _ _ _ _ h1 i1, fun x hx => ?_, by rw [List.map_cons, h0.2, i3]⟩
      rcases List.mem_cons.1 hx with rfl | hx
      · exact ⟨h0.1, ha⟩
      · exact i2 x hx
    cases h with
    | lightOn ga => exact ⟨rfl, _, .on _ (byte_isByte ga), rfl⟩
    | lightOff ga => exact ⟨rfl, _, .off _ (byte_isByte ga), rfl⟩
    | lightTerminate ga => exact ⟨rfl, _, .terminate _ (byte_isByte ga), rfl⟩
    | lightRamp k q cmd ga level _ hd hc =>
      refine ⟨rfl, _, .ramp _ q _ q k (byte_isByte ga) (byte_isByte level) ?_ hd, ?_⟩
      · have := quantise_spec q
        rwa [quantise_rate k q hd] at this
      · rw [← hc]; rfl

/-- C153: a line with lighting commands and nothing else, from any source but 0, is written
character by character as it was received. -/
theorem C153_exact (prio : Prio) (src : UInt8) (hs : src ≠ 0) (d : Bytes) (sals : List SAL) (h : Complete d sals)
    (cs strict : Bool) (m : List Nat)
    (hm : Summed cs ([5 + 64 * prioNumber prio, src.toNat, 0x38, 0] ++ d.map UInt8.toNat) m) (rest : Bytes) :
    ∃ q, decodePacket (digits m ++ 0x0d :: 0x0a :: rest) cs strict true = .ok (some q, (digits m).length + 2) ∧
      q.encodePacket = .ok (digits m) := by
  obtain ⟨h1, h2, h3⟩ := complete_written h
  have hsrc : 1 ≤ (src.toNat : Int) ∧ (src.toNat : Int) ≤ 255 := by
    have := src.toNat_lt
    have : src.toNat ≠ 0 := fun e => hs (by simpa using UInt8.toNat_inj.1 (e.trans (by rfl : 0 = (0 : UInt8).toNat)))
    omega
  obtain ⟨w, e1, e2⟩ := C26_event { checksum := cs, prio := prio, app := some 0x38, sals := sals, conf := none, src := some (src.toNat : Int) }
    ⟨rfl, h2⟩ _ rfl hsrc
  have h4 := packet_sound (.message _ _ (.pm { checksum := cs, prio := prio, app := some 0x38, sals := sals, conf := none, src := some (src.toNat : Int) } 0x38 _ m rfl (by decide) h1 (by
      have hl : low (src.toNat : Int) = src.toNat := by unfold low; rw [byte_mod]; rfl
      simp only [headerValues, Option.map_some, hl]
      exact hm)))
  rw [e1] at h4
  injection h4 with h4
  subst h4
  have := e2 rest strict
  simp only [h3] at this
  exact ⟨_, this, e1⟩

/-- C153 fails for a report that comes through a bridge, which cannot be written. -/
theorem C153_false : ¬ C153_claim := by
  intro h
  have h0 : decodePacket (ascii "0605031210212101\r\n") false true true =
      .ok (some (.pp { unit := 0x21, hops := [0x10], bridged := true, cals := [.identify 1], src := some 5, checksum := false }), 18) := by
    decide +kernel
  obtain ⟨w, h1, -⟩ := h _ false true _ _ h0 rfl
  exact nomatch h1

/-- C153: and for one whose source is 0, which is written as a command is, without a source; what
is read then is something else. -/
theorem C153_zero :
    ∃ q, decodePacket (ascii "05003800790149\r\n") true true true = .ok (some (.pm q), 16) ∧ q.sals = [.lightOn 1] ∧
      (Packet.pm q).encodePacket = .ok (ascii "053800790149") ∧
      decodePacket (ascii "053800790149\r\n") true true true = .ok (some (.invalid [0x00, 0x79, 0x01] .valueError), 14) := by
  refine ⟨{ app := some 0x38, sals := [.lightOn 1] }, ?_⟩
  decide +kernel

/-- A report with two commands and one with a temperature. -/
example : decodePacket (ascii "050338007901010240\r\n") true false true =
      .ok (some (.pm { app := some 0x38, sals := [.lightOn 1, .lightOff 2], src := some 3 }), 20) ∧
    decodePacket (ascii "05051900FA0150\r\n") false true true =
      .ok (some (.pm { checksum := false, app := some 0x19, sals := [], src := some 5 }), 16) := by
  decide +kernel

/-- And one with commands and something unknown behind them: what is written leaves it out. -/
example :
    ∃ q, decodePacket (ascii "050338007901E00102\r\n") false true true = .ok (some q, 20) ∧
      q.encodePacket = .ok (ascii "050338007901") := by
  refine ⟨.pm { checksum := false, app := some 0x38, sals := [.lightOn 1], src := some 3 }, ?_⟩
  decide +kernel

end CBus.Props
