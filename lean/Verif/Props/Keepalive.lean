import Verif.Model.Keepalive

/-! # The connection to the broker is kept up, and given up

The properties C138 and C139. Times are in milliseconds. -/

namespace CBus.Props
open CBus CBus.Daemon

/-- Time does not go back. -/
def InTime : Nat → List (Nat × LinkEvent) → Prop
  | _, [] => True
  | t, (u, _) :: h => t ≤ u ∧ InTime u h

/-- Whenever something happens, the task of `misc_loop` has run in the last so many
milliseconds. -/
def Awake (pause : Nat) : Nat → List (Nat × Seen) → Prop
  | _, [] => True
  | w, (t, x) :: log => t ≤ w + pause ∧ Awake pause (if x = .woke then t else w) log

/-- The broker answers in less than so many milliseconds; what is waited for, and since when,
is given. -/
def Answers (limit : Nat) : Option (Nat × Seen) → List (Nat × Seen) → Prop
  | _, [] => True
  | p, (t, x) :: log => (∀ s y, p = some (s, y) → t < s + limit) ∧
      Answers limit (if x = .ping then some (t, .pong) else if p.map (·.2) = some x then none else p) log

/-- Whenever something happens, the client has sent something less than so many milliseconds ago. -/
def Heard (limit : Nat) : Nat → List (Nat × Seen) → Prop
  | _, [] => True
  | s, (t, x) :: log => t < s + limit ∧ Heard limit (if x = .sent ∨ x = .ping then t else s) log

/-- The client's connection and what the broker is waited for. -/
def Waits (l : BrokerLink) (p : Option (Nat × Seen)) : Prop :=
  (l.connected = false → l.ping = none ∧ ∃ t, p = some (t, .connack) ∧ t ≤ l.lastOut ∧ t ≤ l.lastIn) ∧
  (l.connected = true → p = l.ping.map (fun s => (s, Seen.pong)) ∧ ∀ s, l.ping = some s → s ≤ l.lastOut ∧ s ≤ l.lastIn)

/-- What `loop_misc` does while the broker answers: nothing, or it sends a ping if nothing
was sent or received in the time. -/
theorem misc_cases (k : Nat) (hk : 0 < k) (l : BrokerLink) (t : Nat) (q : Option (Nat × Seen)) (hs : l.sock = true)
    (hq : Waits l q) (hb : ∀ s y, q = some (s, y) → t < s + k) :
    (l.misc k t = (l, []) ∧ t < l.lastOut + k) ∨
    (l.misc k t = ({ l with ping := some t, lastOut := t, lastIn := t }, [.ping]) ∧ l.connected = true ∧ l.ping = none) := by
  obtain ⟨q1, q2⟩ := hq
  have hk0 : k ≠ 0 := by omega
  by_cases hst : k ≤ t - l.lastOut ∨ k ≤ t - l.lastIn
  · cases hc : l.connected with
    | false =>
      obtain ⟨-, s, h1, h2, h3⟩ := q1 hc
      have := hb s _ h1
      omega
    | true =>
      obtain ⟨h1, h2⟩ := q2 hc
      cases hp : l.ping with
      | some s =>
        rw [hp] at h1
        have := hb s _ h1
        have := h2 s hp
        omega
      | none =>
        right
        have hck : l.checkKeepalive k t = ({ l with ping := some t, lastOut := t, lastIn := t }, [.ping]) := by
          unfold BrokerLink.checkKeepalive
          rw [if_neg hk0, if_pos hst, if_pos ⟨hc, hp⟩]
        unfold BrokerLink.misc
        rw [hck]
        simp only [hs, if_true, Nat.sub_self, Nat.le_zero_eq, if_neg hk0]
        simp [hc]
  · left
    have hck : l.checkKeepalive k t = (l, []) := by
      unfold BrokerLink.checkKeepalive
      rw [if_neg hk0, if_neg hst]
    unfold BrokerLink.misc
    rw [hck]
    simp only [hs, if_true]
    refine ⟨?_, by omega⟩
    cases hp : l.ping with
    | none => rfl
    | some s =>
      have hc : l.connected = true := by
        cases hc : l.connected with
        | true => rfl
        | false => rw [(q1 hc).1] at hp; cases hp
      obtain ⟨h1, h2⟩ := q2 hc
      rw [hp] at h1
      have := hb s _ h1
      simp only
      rw [if_neg (by omega)]

theorem keepalive_run (k p : Nat) (hk : 0 < k) : ∀ (h : List (Nat × LinkEvent)) (l : BrokerLink) (now w : Nat)
    (q : Option (Nat × Seen)), l.sock = true → InTime now h → l.lastOut ≤ now → l.lastIn ≤ now →
    w < l.lastOut + k → Waits l q → Awake p w (l.log k h) → Answers k q (l.log k h) →
    (l.run k h).sock = true ∧ (∀ t, (t, .closed) ∉ l.log k h) ∧ Heard (k + p) l.lastOut (l.log k h) := by
  intro h
  induction h with
  | nil => intro l now w q hs; simp [BrokerLink.run, BrokerLink.log, hs, Heard]
  | cons e h ih =>
    obtain ⟨t, e⟩ := e
    intro l now w q hs ⟨ht, hin⟩ ho hi hw hq ha hb
    have single : ∀ (x : Seen) (l' : BrokerLink), l.step k t e = (l', [x]) → x ≠ .closed → x ≠ .ping → x ≠ .woke →
        l'.sock = true → l'.lastOut = (if x = .sent ∨ x = .ping then t else l.lastOut) →
        l'.lastIn ≤ t → l'.lastOut ≤ t →
        Waits l' (if x = .ping then some (t, .pong) else if q.map (·.2) = some x then none else q) →
        (l.run k ((t, e) :: h)).sock = true ∧ (∀ t', (t', .closed) ∉ l.log k ((t, e) :: h)) ∧
          Heard (k + p) l.lastOut (l.log k ((t, e) :: h)) := by
      intro x l' hst n1 n2 n3 k1 k2 k3 k4 k5
      simp only [BrokerLink.log, hst, List.map_cons, List.map_nil, List.cons_append, List.nil_append, Awake, Answers,
        if_neg n3] at ha hb
      have hw' : w < l'.lastOut + k := by
        rw [k2]
        split <;> omega
      obtain ⟨r1, r2, r3⟩ := ih l' t w _ k1 hin k4 k3 hw' k5 ha.2 hb.2
      refine ⟨by simpa only [BrokerLink.run, hst] using r1, ?_, ?_⟩
      · intro t'
        simp only [BrokerLink.log, hst, List.map_cons, List.map_nil, List.cons_append, List.nil_append, List.mem_cons,
          Prod.mk.injEq, not_or]
        exact ⟨fun c => n1 c.2.symm, r2 t'⟩
      · simp only [BrokerLink.log, hst, List.map_cons, List.map_nil, List.cons_append, List.nil_append, Heard]
        refine ⟨by have := ha.1; omega, ?_⟩
        rw [← k2]
        exact r3
    obtain ⟨q1, q2⟩ := hq
    have other : ∀ x : Seen, x ≠ .pong → x ≠ .connack → (if q.map (·.2) = some x then none else q) = q := by
      intro x n1 n2
      cases hc : l.connected with
      | false => obtain ⟨-, s, h1, -⟩ := q1 hc; subst h1; simp [n2.symm]
      | true => rw [(q2 hc).1]; cases l.ping <;> simp [n1.symm]
    cases e with
    | wake =>
      have hlog : l.log k ((t, .wake) :: h) = (t, .woke) :: ((l.misc k t).2.map (fun x => (t, x)) ++
          BrokerLink.log k (l.misc k t).1 h) := by
        simp only [BrokerLink.log, BrokerLink.step, hs, if_true, List.map_cons, List.cons_append]
      have hrun : l.run k ((t, .wake) :: h) = (l.misc k t).1.run k h := by
        simp only [BrokerLink.run, BrokerLink.step, hs, if_true]
      rw [hlog] at ha hb ⊢
      rw [hrun]
      simp only [Awake, Answers, if_true, reduceCtorEq, if_false, other .woke (by simp) (by simp)] at ha hb
      rcases misc_cases k hk l t q hs ⟨q1, q2⟩ hb.1 with ⟨hm, hlt⟩ | ⟨hm, hc, hp⟩
      · rw [hm] at ha hb ⊢
        simp only [List.map_nil, List.nil_append] at ha hb ⊢
        obtain ⟨r1, r2, r3⟩ := ih l t t q hs hin (by omega) (by omega) hlt ⟨q1, q2⟩ ha.2 hb.2
        refine ⟨r1, ?_, ?_⟩
        · simpa using r2
        · simp only [Heard, reduceCtorEq, or_self, if_false]
          exact ⟨by omega, r3⟩
      · rw [hm] at ha hb ⊢
        simp only [List.map_cons, List.map_nil, List.cons_append, List.nil_append, Awake, Answers, if_true, reduceCtorEq,
          if_false] at ha hb ⊢
        obtain ⟨r1, r2, r3⟩ := ih { l with ping := some t, lastOut := t, lastIn := t } t t (some (t, .pong)) hs hin
          (Nat.le_refl _) (Nat.le_refl _) (by simp only; omega) ⟨fun h => (by simp [hc] at h), fun _ => ⟨rfl, by simp⟩⟩ ha.2.2 hb.2.2
        refine ⟨r1, ?_, ?_⟩
        · simpa using r2
        · simp only [Heard, reduceCtorEq, or_self, if_false, or_true, if_true]
          have := ha.1
          exact ⟨by omega, by omega, r3⟩
    | sent =>
      refine single .sent { l with lastOut := t } (by simp [BrokerLink.step, hs]) (by simp) (by simp) (by simp) hs (by simp)
        (by simp only; omega) (Nat.le_refl _) ?_
      rw [if_neg (by simp), other .sent (by simp) (by simp)]
      exact ⟨fun hc => ⟨(q1 hc).1, by obtain ⟨-, s, h1, h2, h3⟩ := q1 hc; exact ⟨s, h1, by simp only; omega, h3⟩⟩,
        fun hc => ⟨(q2 hc).1, fun s h => by have := (q2 hc).2 s h; exact ⟨by simp only; omega, this.2⟩⟩⟩
    | received =>
      refine single .received { l with lastIn := t } (by simp [BrokerLink.step, hs]) (by simp) (by simp) (by simp) hs (by simp)
        (Nat.le_refl _) (by simp only; omega) ?_
      rw [if_neg (by simp), other .received (by simp) (by simp)]
      exact ⟨fun hc => ⟨(q1 hc).1, by obtain ⟨-, s, h1, h2, h3⟩ := q1 hc; exact ⟨s, h1, h2, by simp only; omega⟩⟩,
        fun hc => ⟨(q2 hc).1, fun s h => by have := (q2 hc).2 s h; exact ⟨this.1, by simp only; omega⟩⟩⟩
    | connack =>
      refine single .connack { l with lastIn := t, connected := true } (by simp [BrokerLink.step, hs]) (by simp) (by simp)
        (by simp) hs (by simp) (Nat.le_refl _) (by simp only; omega) ?_
      rw [if_neg (by simp)]
      refine ⟨by simp, fun _ => ?_⟩
      cases hc : l.connected with
      | false =>
        obtain ⟨h0, s, h1, -⟩ := q1 hc
        simp [h0, h1]
      | true =>
        obtain ⟨h1, h2⟩ := q2 hc
        rw [h1]
        refine ⟨by cases l.ping <;> simp, fun s h => ?_⟩
        have := h2 s h
        exact ⟨this.1, by simp only; omega⟩
    | pong =>
      refine single .pong { l with lastIn := t, ping := none } (by simp [BrokerLink.step, hs]) (by simp) (by simp)
        (by simp) hs (by simp) (Nat.le_refl _) (by simp only; omega) ?_
      rw [if_neg (by simp)]
      refine ⟨fun hc => ?_, fun hc => ?_⟩
      · obtain ⟨h0, s, h1, h2, h3⟩ := q1 hc
        exact ⟨rfl, s, by simp [h1], h2, by simp only; omega⟩
      · obtain ⟨h1, h2⟩ := q2 hc
        rw [h1]
        exact ⟨by cases l.ping <;> simp, by simp⟩

theorem heard_le {a b : Nat} (hab : a ≤ b) : ∀ (log : List (Nat × Seen)) (s : Nat), Heard a s log → Heard b s log
  | [], _, _ => trivial
  | (t, x) :: log, s, h => ⟨by have := h.1; omega, heard_le hab log _ h.2⟩

/-! ## C138 -/

/-- C138 for every keepalive and every rhythm of `misc_loop`: if the broker answers in time,
the client never closes the connection, and is never silent for longer than the
keepalive and the pause of `misc_loop`. -/
theorem C138_kept (keepalive pause t0 : Nat) (h : List (Nat × LinkEvent)) (hk : 0 < keepalive) (ht : InTime t0 h)
    (ha : Awake pause t0 ((BrokerLink.start t0).log keepalive h))
    (hb : Answers keepalive (some (t0, .connack)) ((BrokerLink.start t0).log keepalive h)) :
    ((BrokerLink.start t0).run keepalive h).sock = true ∧
    (∀ t, (t, .closed) ∉ (BrokerLink.start t0).log keepalive h) ∧
    Heard (keepalive + pause) t0 ((BrokerLink.start t0).log keepalive h) :=
  keepalive_run keepalive pause hk h (BrokerLink.start t0) t0 t0 _ rfl ht (Nat.le_refl _) (Nat.le_refl _)
    (by simp only [BrokerLink.start]; omega)
    ⟨fun _ => ⟨rfl, t0, rfl, Nat.le_refl _, Nat.le_refl _⟩, fun h => by simp [BrokerLink.start] at h⟩ ha hb

/-- C138: with a keepalive in seconds, `misc_loop` waking up every second and at most half a second
late, the connection is not closed as long as the broker answers in time, and the client
is not silent for one and a half times the keepalive (after which a broker closes
the connection, MQTT 3.1.1 section 3.1.2.10). -/
def C138_claim : Prop :=
  ∀ (seconds delay t0 : Nat) (h : List (Nat × LinkEvent)), 1 ≤ seconds → delay ≤ 500 → InTime t0 h →
    Awake (1000 + delay) t0 ((BrokerLink.start t0).log (1000 * seconds) h) →
    Answers (1000 * seconds) (some (t0, .connack)) ((BrokerLink.start t0).log (1000 * seconds) h) →
    (∀ t, (t, .closed) ∉ (BrokerLink.start t0).log (1000 * seconds) h) ∧
    Heard (1500 * seconds) t0 ((BrokerLink.start t0).log (1000 * seconds) h)

/-- C138 for a keepalive of three seconds or more, and more generally of twice the pause of
`misc_loop`. Missing is a keepalive of one or two seconds, for which it is false. -/
theorem C138_partial (seconds delay t0 : Nat) (h : List (Nat × LinkEvent)) (hs : 2 * (1000 + delay) ≤ 1000 * seconds)
    (ht : InTime t0 h) (ha : Awake (1000 + delay) t0 ((BrokerLink.start t0).log (1000 * seconds) h))
    (hb : Answers (1000 * seconds) (some (t0, .connack)) ((BrokerLink.start t0).log (1000 * seconds) h)) :
    (∀ t, (t, .closed) ∉ (BrokerLink.start t0).log (1000 * seconds) h) ∧
    Heard (1500 * seconds) t0 ((BrokerLink.start t0).log (1000 * seconds) h) := by
  obtain ⟨-, h2, h3⟩ := C138_kept (1000 * seconds) (1000 + delay) t0 h (by omega) ht ha hb
  exact ⟨h2, heard_le (by omega) _ _ h3⟩

/-- A second of keepalive, and a message just after `misc_loop` has run. -/
def hastyHistory : List (Nat × LinkEvent) :=
  [(0, .wake), (1, .connack), (1001, .wake), (1002, .pong), (1010, .sent), (1012, .received), (2002, .wake), (3003, .wake)]

theorem hasty_log : (BrokerLink.start 0).log 1000 hastyHistory =
    [(0, .woke), (1, .connack), (1001, .woke), (1001, .ping), (1002, .pong), (1010, .sent), (1012, .received), (2002, .woke),
     (3003, .woke), (3003, .ping)] := by decide

/-- C138 is false: with a keepalive of one second the client can be silent for almost two. -/
theorem C138_false : ¬ C138_claim := by
  intro h
  have := (h 1 1 0 hastyHistory (by decide) (by decide) (by simp [InTime, hastyHistory])
    (by rw [Nat.mul_one, hasty_log]; simp [Awake]) (by rw [Nat.mul_one, hasty_log]; simp [Answers])).2
  rw [Nat.mul_one, hasty_log] at this
  simp [Heard] at this

/-- Three seconds of keepalive, with a ping. -/
def calmHistory : List (Nat × LinkEvent) :=
  [(0, .wake), (5, .connack), (1000, .wake), (2010, .wake), (3010, .wake), (3050, .pong), (4010, .wake)]

theorem calm_log : (BrokerLink.start 0).log 3000 calmHistory =
    [(0, .woke), (5, .connack), (1000, .woke), (2010, .woke), (3010, .woke), (3010, .ping), (3050, .pong), (4010, .woke)] := by
  decide

example : Heard 4500 0 ((BrokerLink.start 0).log 3000 calmHistory) :=
  (C138_partial 3 10 0 calmHistory (by decide) (by simp [InTime, calmHistory])
    (by rw [show 1000 * 3 = 3000 from rfl, calm_log]; simp [Awake])
    (by rw [show 1000 * 3 = 3000 from rfl, calm_log]; simp [Answers])).2

/-! ## C139 -/

/-- The broker is silent. -/
def NothingReceived (h : List (Nat × LinkEvent)) : Prop := ∀ e ∈ h, e.2 = .wake ∨ e.2 = .sent

/-- Before the ping and after it. -/
def Silence (k p s w : Nat) (l : BrokerLink) : Prop :=
  (l.lastIn ≤ s ∧ w < s + k) ∨ (∃ q, l.ping = some q ∧ q < s + k + p ∧ w < s + 2 * k + p)

/-- `loop_misc` closes the socket and says so, or the client is still in one of the two. -/
theorem misc_silence (k p s w t : Nat) (l : BrokerLink) (hk : 0 < k) (hs : l.sock = true) (hw : Silence k p s w l)
    (ht : t ≤ w + p) :
    ((l.misc k t).1.sock = false ∧ .closed ∈ (l.misc k t).2) ∨
    ((l.misc k t).1.sock = true ∧ Silence k p s t (l.misc k t).1) := by
  have hk0 : k ≠ 0 := by omega
  by_cases hst : k ≤ t - l.lastOut ∨ k ≤ t - l.lastIn
  · by_cases hcp : l.connected = true ∧ l.ping = none
    · right
      have hck : l.checkKeepalive k t = ({ l with ping := some t, lastOut := t, lastIn := t }, [.ping]) := by
        unfold BrokerLink.checkKeepalive
        rw [if_neg hk0, if_pos hst, if_pos hcp]
      have hm : l.misc k t = ({ l with ping := some t, lastOut := t, lastIn := t }, [.ping]) := by
        unfold BrokerLink.misc
        rw [hck]
        simp only [hs, if_true, Nat.sub_self, Nat.le_zero_eq, if_neg hk0]
      rw [hm]
      refine ⟨hs, ?_⟩
      rcases hw with ⟨h1, h2⟩ | ⟨q, h1, -⟩
      · exact .inr ⟨t, rfl, by omega, by omega⟩
      · rw [hcp.2] at h1
        cases h1
    · left
      have hck : l.checkKeepalive k t = ({ l with sock := false }, [.closed]) := by
        unfold BrokerLink.checkKeepalive
        rw [if_neg hk0, if_pos hst, if_neg hcp]
      have hm : l.misc k t = ({ l with sock := false }, [.closed]) := by
        unfold BrokerLink.misc
        rw [hck]
        simp
      rw [hm]
      simp
  · have hck : l.checkKeepalive k t = (l, []) := by
      unfold BrokerLink.checkKeepalive
      rw [if_neg hk0, if_neg hst]
    unfold BrokerLink.misc
    rw [hck]
    simp only [hs, if_true]
    cases hp : l.ping with
    | none =>
      right
      refine ⟨hs, ?_⟩
      rcases hw with ⟨h1, h2⟩ | ⟨q, h1, -⟩
      · exact .inl ⟨h1, by omega⟩
      · rw [hp] at h1
        cases h1
    | some q =>
      simp only
      by_cases hq : k ≤ t - q
      · rw [if_pos hq]
        left
        simp
      · rw [if_neg hq]
        right
        refine ⟨hs, ?_⟩
        rcases hw with ⟨h1, h2⟩ | ⟨q', h1, h2, h3⟩
        · exact .inl ⟨h1, by omega⟩
        · rw [hp] at h1
          injection h1 with h1
          subst h1
          exact .inr ⟨q, hp, h2, by omega⟩

theorem silence_run (k p s : Nat) (hk : 0 < k) : ∀ (h : List (Nat × LinkEvent)) (l : BrokerLink) (w : Nat),
    NothingReceived h → Silence k p s w l → Awake p w (l.log k h) → l.sock = true →
    (∃ e ∈ h, s + 2 * (k + p) ≤ e.1) → ∃ t, t < s + 2 * (k + p) ∧ (t, .closed) ∈ l.log k h := by
  intro h
  induction h with
  | nil => intro l w _ _ _ _ ⟨e, he, _⟩; cases he
  | cons e h ih =>
    obtain ⟨t, e⟩ := e
    intro l w hn hw ha hs hlate
    have hbound : t ≤ w + p → t < s + 2 * (k + p) := by
      intro ht
      rcases hw with ⟨-, h2⟩ | ⟨q, -, -, h2⟩ <;> omega
    have hn' : NothingReceived h := fun e he => hn e (List.mem_cons_of_mem _ he)
    have tail : t ≤ w + p → ∃ e ∈ h, s + 2 * (k + p) ≤ e.1 := by
      intro ht
      obtain ⟨e', he', hl⟩ := hlate
      rcases List.mem_cons.1 he' with rfl | he'
      · have := hbound ht
        simp only at hl
        omega
      · exact ⟨e', he', hl⟩
    rcases hn (t, e) List.mem_cons_self with he | he <;> simp only at he <;> subst he
    · have hlog : l.log k ((t, .wake) :: h) = (t, .woke) :: ((l.misc k t).2.map (fun x => (t, x)) ++
          BrokerLink.log k (l.misc k t).1 h) := by
        simp only [BrokerLink.log, BrokerLink.step, hs, if_true, List.map_cons, List.cons_append]
      rw [hlog] at ha ⊢
      simp only [Awake, if_true] at ha
      rcases misc_silence k p s w t l hk hs hw ha.1 with ⟨h1, h2⟩ | ⟨h1, h2⟩
      · exact ⟨t, hbound ha.1, List.mem_cons_of_mem _ (List.mem_append.2 (.inl (List.mem_map.2 ⟨_, h2, rfl⟩)))⟩
      · have hrest : ∀ (xs : List Seen) (w' : Nat) (log : List (Nat × Seen)), w' = t →
            Awake p w' (xs.map (fun x => (t, x)) ++ log) → Awake p t log := by
          intro xs
          induction xs with
          | nil => intro w' log hw' h; subst hw'; exact h
          | cons x xs ihx =>
            intro w' log hw' h
            refine ihx _ log ?_ h.2
            split <;> simp_all
        obtain ⟨u, hu1, hu2⟩ := ih (l.misc k t).1 t hn' h2 (hrest _ t _ rfl ha.2) h1 (tail ha.1)
        exact ⟨u, hu1, List.mem_cons_of_mem _ (List.mem_append.2 (.inr hu2))⟩
    · have hlog : l.log k ((t, .sent) :: h) = (t, .sent) :: BrokerLink.log k { l with lastOut := t } h := by
        simp only [BrokerLink.log, BrokerLink.step, hs, if_true, List.map_cons, List.map_nil, List.cons_append,
          List.nil_append]
      rw [hlog] at ha ⊢
      simp only [Awake, reduceCtorEq, if_false] at ha
      obtain ⟨u, hu1, hu2⟩ := ih { l with lastOut := t } w hn' hw ha.2 hs (tail ha.1)
      exact ⟨u, hu1, List.mem_cons_of_mem _ hu2⟩

theorem log_append (k : Nat) : ∀ (h1 h2 : List (Nat × LinkEvent)) (l : BrokerLink),
    l.log k (h1 ++ h2) = l.log k h1 ++ (l.run k h1).log k h2
  | [], _, _ => rfl
  | (t, e) :: h1, h2, l => by simp [BrokerLink.log, BrokerLink.run, log_append k h1 h2]

theorem awake_append (p s : Nat) (log2 : List (Nat × Seen)) : ∀ (log1 : List (Nat × Seen)) (w : Nat), w ≤ s →
    (∀ e ∈ log1, e.1 ≤ s) → Awake p w (log1 ++ log2) → ∃ w' ≤ s, Awake p w' log2
  | [], w, hw, _, h => ⟨w, hw, h⟩
  | (t, x) :: log1, w, hw, hs, h => by
    refine awake_append p s log2 log1 _ ?_ (fun e he => hs e (List.mem_cons_of_mem _ he)) h.2
    have := hs (t, x) List.mem_cons_self
    split
    · exact this
    · exact hw

/-- Before the silence. -/
theorem before_silence (k s : Nat) : ∀ (h : List (Nat × LinkEvent)) (l : BrokerLink), (∀ e ∈ h, e.1 ≤ s) →
    l.lastIn ≤ s → (∀ e ∈ l.log k h, e.1 ≤ s) ∧ (l.run k h).lastIn ≤ s ∧
    (l.sock = true → (l.run k h).sock = true ∨ ∃ t, t ≤ s ∧ (t, .closed) ∈ l.log k h) := by
  intro h
  induction h with
  | nil => intro l _ hl; exact ⟨by simp [BrokerLink.log], hl, fun h => .inl h⟩
  | cons e h ih =>
    obtain ⟨t, e⟩ := e
    intro l hh hl
    have ht : t ≤ s := hh (t, e) List.mem_cons_self
    have hstep : (l.step k t e).1.lastIn ≤ s ∧
        (l.sock = true → (l.step k t e).1.sock = true ∨ .closed ∈ (l.step k t e).2) := by
      unfold BrokerLink.step
      cases hsock : l.sock with
      | false => simp [hl]
      | true =>
        simp only [if_true]
        cases e with
        | wake =>
          unfold BrokerLink.misc BrokerLink.checkKeepalive
          simp only
          repeat' split
          all_goals simp_all
        | _ => simp_all
    obtain ⟨r1, r2, r3⟩ := ih (l.step k t e).1 (fun e he => hh e (List.mem_cons_of_mem _ he)) hstep.1
    refine ⟨?_, r2, fun hsock => ?_⟩
    · intro e' he'
      simp only [BrokerLink.log] at he'
      rcases List.mem_append.1 he' with he' | he'
      · obtain ⟨x, -, rfl⟩ := List.mem_map.1 he'
        exact ht
      · exact r1 e' he'
    · simp only [BrokerLink.log, BrokerLink.run]
      rcases hstep.2 hsock with h1 | h1
      · rcases r3 h1 with h2 | ⟨u, hu, h2⟩
        · exact .inl h2
        · exact .inr ⟨u, hu, List.mem_append.2 (.inr h2)⟩
      · exact .inr ⟨t, ht, List.mem_append.2 (.inl (List.mem_map.2 ⟨_, h1, rfl⟩))⟩

/-- C139: nothing is received after the time `s`. If the client is still running when twice the
keepalive and the pause of `misc_loop` have gone by, it has closed the connection by then. -/
theorem C139_noticed (keepalive pause t0 s : Nat) (before after : List (Nat × LinkEvent)) (hk : 0 < keepalive) (h0 : t0 ≤ s)
    (hbefore : ∀ e ∈ before, e.1 ≤ s) (hn : NothingReceived after)
    (ha : Awake pause t0 ((BrokerLink.start t0).log keepalive (before ++ after)))
    (hlate : ∃ e ∈ after, s + 2 * (keepalive + pause) ≤ e.1) :
    ∃ t, t < s + 2 * (keepalive + pause) ∧ (t, .closed) ∈ (BrokerLink.start t0).log keepalive (before ++ after) := by
  obtain ⟨h1, h2, h3⟩ := before_silence keepalive s before (BrokerLink.start t0) hbefore h0
  rw [log_append] at ha ⊢
  rcases h3 rfl with h3 | ⟨t, ht, h3⟩
  · obtain ⟨w, hw, ha'⟩ := awake_append pause s _ _ t0 h0 h1 ha
    obtain ⟨t, ht, hm⟩ := silence_run keepalive pause s hk after _ w hn (.inl ⟨h2, by omega⟩) ha' h3 hlate
    exact ⟨t, ht, List.mem_append.2 (.inr hm)⟩
  · exact ⟨t, by omega, List.mem_append.2 (.inl h3)⟩

/-- C139: with a keepalive of 0 the client never sends a ping and never closes the connection. -/
theorem C139_zero (t0 : Nat) (h : List (Nat × LinkEvent)) :
    ((BrokerLink.start t0).run 0 h).sock = true ∧
      ∀ e ∈ (BrokerLink.start t0).log 0 h, e.2 ≠ .closed ∧ e.2 ≠ .ping := by
  have main : ∀ (h : List (Nat × LinkEvent)) (l : BrokerLink), l.sock = true → l.ping = none →
      (l.run 0 h).sock = true ∧ ∀ e ∈ l.log 0 h, e.2 ≠ .closed ∧ e.2 ≠ .ping := by
    intro h
    induction h with
    | nil => intro l hs _; exact ⟨hs, by simp [BrokerLink.log]⟩
    | cons e h ih =>
      obtain ⟨t, e⟩ := e
      intro l hs hp
      have hstep : (l.step 0 t e).1.sock = true ∧ (l.step 0 t e).1.ping = none ∧
          ∀ x ∈ (l.step 0 t e).2, x ≠ .closed ∧ x ≠ .ping := by
        cases e <;> simp [BrokerLink.step, BrokerLink.misc, BrokerLink.checkKeepalive, hs, hp]
      obtain ⟨r1, r2⟩ := ih _ hstep.1 hstep.2.1
      refine ⟨r1, fun e' he' => ?_⟩
      simp only [BrokerLink.log] at he'
      rcases List.mem_append.1 he' with he' | he'
      · obtain ⟨x, hx, rfl⟩ := List.mem_map.1 he'
        exact hstep.2.2 x hx
      · exact r2 e' he'
  exact main h _ rfl rfl

/-- A broker that is gone after a second, and messages that are still sent. -/
def goneHistory : List (Nat × LinkEvent) :=
  [(1000, .wake), (1500, .sent), (2000, .wake), (3000, .wake), (3500, .sent), (4000, .wake), (5000, .wake), (6000, .wake),
   (9000, .wake)]

theorem gone_log : (BrokerLink.start 0).log 2000 ([(0, .wake), (5, .connack)] ++ goneHistory) =
    [(0, .woke), (5, .connack), (1000, .woke), (1500, .sent), (2000, .woke), (3000, .woke), (3000, .ping), (3500, .sent),
     (4000, .woke), (5000, .woke), (5000, .closed)] := by decide

example : ∃ t, t < 5 + 2 * (2000 + 1000) ∧
    (t, .closed) ∈ (BrokerLink.start 0).log 2000 ([(0, .wake), (5, .connack)] ++ goneHistory) :=
  C139_noticed 2000 1000 0 5 [(0, .wake), (5, .connack)] goneHistory (by decide) (by decide) (by decide)
    (by unfold NothingReceived; decide) (by rw [gone_log]; simp [Awake]) ⟨(9000, .wake), by decide, by decide⟩

end CBus.Props
