import Verif.Props.Life
import Verif.Spec.Source

/-! # C123: what is published is what a line of the default lighting application says -/

namespace CBus.Props
open CBus CBus.Spec

/-- An event for which something is published. -/
def Published (e : Event) : Prop := eventMessages e ≠ []

theorem published_sal {src : Option Int} {s : SAL} {e : Event} (h : salEvent src s = some e) (hp : Published e) :
    s.application = 0x38 := by
  cases s with
  | lightOn => rfl
  | lightOff => rfl
  | lightTerminate => rfl
  | lightRamp => rfl
  | clockUpdate => cases h; exact absurd rfl hp
  | clockRequest => cases h; exact absurd rfl hp
  | temperature => cases h
  | enableSet => cases h
  | statusRequest => cases h

theorem payload_says {flags : UInt8} {d : Bytes} {p : PM} {n : Nat} {src : Option Int} {s : SAL} {e : Event}
    (h : PayloadAt true false flags d (.ok (.pm p, n))) (hs : s ∈ p.sals) (he : salEvent src s = some e) (hp : Published e) :
    ∃ data, d = 0x38 :: 0x00 :: data ∧ flags.toNat % 8 = 5 ∧ flags.toNat / 32 % 2 = 0 ∧ Reads .lighting data (.ok p.sals) := by
  generalize hr : (Except.ok (Packet.pm p, n) : Py (Packet × Nat)) = r at h
  cases h with
  | dm r => cases r <;> simp [Except.map] at hr
  | cal => simp_all
  | calRefused => simp_all
  | pp r => cases r <;> simp [Except.map] at hr
  | other => cases hr
  | pm r hf _ ht hm =>
    cases hm with
    | packet a rest h hh sals hrd ha =>
      simp only [Except.map, Except.ok.injEq, Prod.mk.injEq, Packet.pm.injEq] at hr
      obtain ⟨rfl, _⟩ := hr
      have e1 : (a.toNat : Int) = 0x38 := by rw [← ha s hs]; exact published_sal he hp
      have e2 : a = 0x38 := by
        apply UInt8.toNat_inj.1
        show a.toNat = 0x38
        omega
      subst e2
      have e3 : h = .lighting := by
        have : expectedHandler (56 : Int) = some .lighting := by decide
        have h2 : expectedHandler (56 : Int) = some h := hh
        rw [this] at h2
        exact (Option.some.inj h2).symm
      subst e3
      exact ⟨rest, rfl, ht, hf, hrd⟩
    | _ => simp [Except.map] at hr

theorem payload_plain {flags : UInt8} {d : Bytes} {p : Packet} {n : Nat} (h : PayloadAt true false flags d (.ok (p, n))) :
    (∃ q, p = .pm q) ∨ (∃ q, p = .pp q) ∨ ∃ q, p = .dm q := by
  generalize hr : (Except.ok (p, n) : Py (Packet × Nat)) = r at h
  cases h with
  | dm r => cases r <;> simp [Except.map] at hr; exact .inr (.inr ⟨_, hr.1⟩)
  | cal => simp_all
  | calRefused => simp_all
  | pp r => cases r <;> simp [Except.map] at hr; exact .inr (.inl ⟨_, hr.1⟩)
  | other => cases hr
  | pm r => cases r <;> simp [Except.map] at hr; exact .inl ⟨_, hr.1⟩

theorem line_says {d : Bytes} {p : Packet} {n : Nat} {e : Event} (h : FromPci true true d (some p, n))
    (he : e ∈ packetEvents p) (hp : Published e) : ∃ line rest, d = line ++ 0x0d :: 0x0a :: rest ∧ LineSays line e := by
  generalize hr : (some p, n) = r at h
  cases h with
  | powerOn => cases hr; cases he
  | error =>
    cases hr
    cases List.mem_singleton.1 he
    exact absurd rfl hp
  | confirmed =>
    cases hr
    cases List.mem_singleton.1 he
    exact absurd rfl hp
  | refused =>
    cases hr
    cases List.mem_singleton.1 he
    exact absurd rfl hp
  | waiting => cases hr
  | empty => cases hr
  | line l rest r hl hh h =>
    cases hr
    refine ⟨l, rest, rfl, ?_⟩
    cases h with
    | text => cases he
    | digits t m hx hm =>
      cases hm with
      | unchecked _ _ hc => cases hc
      | wrong => cases he
      | checked m x r _ hz hb =>
        cases hb with
        | type => cases he
        | short => cases he
        | refused => cases he
        | packet flags src d' h p n hpl =>
          cases p with
          | pm q =>
            obtain ⟨s, hs, hse⟩ := List.mem_filterMap.1 (show e ∈ q.sals.filterMap
              (salEvent (if src = 0 then none else some src.toNat)) from he)
            obtain ⟨data, rfl, h5, h0, hrd⟩ := payload_says hpl hs hse hp
            exact ⟨flags, src, x, data, q.sals, s, hx, hz rfl, h5, h0, hrd, hs, hse⟩
          | pp => cases he
          | dm => cases he
          | cal => cases he
          | confirmation c ok => rcases payload_plain hpl with ⟨_, h⟩ | ⟨_, h⟩ | ⟨_, h⟩ <;> cases h
          | pciError => rcases payload_plain hpl with ⟨_, h⟩ | ⟨_, h⟩ | ⟨_, h⟩ <;> cases h
          | _ => cases he

/-- What is published is about events that lines of the characters `d` say. -/
def Reported (d : Bytes) (o : List (Eff MqttEff)) : Prop :=
  ∀ m, Eff.ext m ∈ o → ∃ line e, line ++ [0x0d, 0x0a] <:+: d ∧ LineSays line e ∧ m ∈ eventMessages e

theorem handles_reported {m : Manner MqttEff} (hm : ∀ e, m.says e ⊆ eventMessages e) {es : List Event} {k k' : Count}
    {o : List (Eff MqttEff)} (h : Handles m es k o k') :
    ∀ x, Eff.ext x ∈ o → ∃ e ∈ es, x ∈ eventMessages e := by
  induction h with
  | nil => intro x h; cases h
  | clock src es k k' l o _ hl _ ih =>
    intro x h
    simp only [List.mem_cons] at h
    rcases h with h | h | h
    · cases h
    · cases h
    · obtain ⟨e, h1, h2⟩ := ih x h
      exact ⟨e, List.mem_cons_of_mem _ h1, h2⟩
  | noClock src es k k' o _ _ ih =>
    intro x h
    simp only [List.mem_cons] at h
    rcases h with h | h
    · cases h
    · obtain ⟨e, h1, h2⟩ := ih x h
      exact ⟨e, List.mem_cons_of_mem _ h1, h2⟩
  | other e es k k' o _ _ ih =>
    intro x h
    simp only [List.cons_append, List.mem_cons, List.mem_append] at h
    rcases h with h | h | h
    · cases h
    · obtain ⟨y, h1, h2⟩ := List.mem_map.1 h
      cases h2
      exact ⟨e, List.mem_cons_self, hm e h1⟩
    · obtain ⟨e, h1, h2⟩ := ih x h
      exact ⟨e, List.mem_cons_of_mem _ h1, h2⟩

theorem reported_drop {d : Bytes} {n : Nat} {o : List (Eff MqttEff)} (h : Reported (d.drop n) o) : Reported d o := by
  intro m hm
  obtain ⟨line, e, h1, h2⟩ := h m hm
  exact ⟨line, e, h1.trans (List.drop_suffix n d).isInfix, h2⟩

theorem hears_reported {m : Manner MqttEff} (hm : ∀ e, m.says e ⊆ eventMessages e) {d d' : Bytes} {k k' : Count}
    {o : List (Eff MqttEff)} {r : Py Unit} (h : Hears m d k o d' k' r) : Reported d o := by
  induction h with
  | waits => intro x h; cases h
  | fault => intro x h; cases h
  | skips _ _ _ _ _ _ _ _ _ _ ih => exact reported_drop ih
  | message d p n k k1 k2 o1 o2 d' r h ho _ ih =>
    intro x hx
    rcases List.mem_append.1 hx with hx | hx
    · obtain ⟨e, h1, h2⟩ := handles_reported hm ho x hx
      obtain ⟨line, rest, rfl, h3⟩ := line_says h h1 (by intro hn; rw [hn] at h2; cases h2)
      refine ⟨line, e, ⟨[], rest, ?_⟩, h3, h2⟩
      simp
    · exact reported_drop ih x hx

/-- C123: whatever is received, each message that the daemon publishes because of it is about an event
that a whole line among the characters received says, a line of the default lighting application with
the right checksum. -/
theorem C123_published (now : Nat → PyDateTime) (hnow : ∀ n, DateTimeOk (now n)) (c : Conn Client) (hu : Up c.st) (d : Bytes)
    (m : MqttEff) (h : Eff.ext m ∈ (Client.dataReceived (Mqtt.cbusHook now) d c).2.1) :
    ∃ line e, line ++ [0x0d, 0x0a] <:+: c.buf ++ d ∧ LineSays line e ∧ m ∈ eventMessages e := by
  have hf : feed maxBufferSize (Client.handle (Mqtt.cbusHook now)) [d] ⟨c.buf, c.st⟩ =
      Client.dataReceived (Mqtt.cbusHook now) d c := by
    simp only [feed, Client.dataReceived, Proc.andThen]
    generalize CBus.dataReceived maxBufferSize (Client.handle (Mqtt.cbusHook now)) d c = z
    obtain ⟨z1, z2, z3⟩ := z
    cases z3 <;> simp
  generalize hz : Client.dataReceived (Mqtt.cbusHook now) d c = z at h hf
  obtain ⟨c', o, r⟩ := z
  obtain ⟨k, hk, _⟩ := (C102_daemon now hnow c.st hu c.buf [d] c' o r).1 hf
  have hm : ∀ e, (if c.st.mqttApi then eventMessages e else []) ⊆ eventMessages e := by
    intro e x hx
    split at hx
    · exact hx
    · cases hx
  generalize c'.buf = b' at hk
  generalize c.buf = b at hk ⊢
  cases hk with
  | huge => cases h
  | overflow => cases h
  | ends _ _ _ _ _ _ _ _ _ hh => exact hears_reported hm hh m h
  | goesOn _ _ _ _ _ _ _ _ _ _ _ _ hh hr =>
    cases hr
    rw [List.append_nil] at h
    exact hears_reported hm hh m h

/-- The same command for group 1 with the default lighting application, with another one, with a wrong
checksum and in two halves with the beginning of another line between them: only the first is heard. -/
example : messagesOf (Client.dataReceived (Mqtt.cbusHook fun _ => someTime)
      (ascii "05053800790144\r\n05053000790149\r\n05053800790145\r\n0505380005790144\r\n")
      ⟨[], { connected := true, mqttApi := true }⟩).2.1 = eventMessages (.lightingOn (some 5) 1) ∧
    LineSays (ascii "05053800790144") (.lightingOn (some 5) 1) := by
  refine ⟨by decide +kernel, 0x05, 0x05, 0x44, [0x79, 0x01], [.lightOn 1], .lightOn 1, (b16decode_iff _ _).1 (by decide +kernel),
    by unfold SumsToZero; decide, by decide, by decide, ?_, by simp, rfl⟩
  exact .command _ _ _ _ (.lightOn 1 []) (.stop _ (by rintro s rest h; cases h) (by rintro e h; cases h))

end CBus.Props
