import Verif.Props.Street
import Verif.Props.Discovery

/-! # C149: what the broker shows after the daemon was away

The street of C126, on which the daemon is stopped and started again. -/

namespace CBus.Props
open CBus CBus.Spec

/-- A street; whether the daemon is running; and a note of the lights for which there was a command that the daemon has not
been told of, and none since. -/
structure Block where
  street : Street
  up : Bool := true
  missed : UInt8 → Bool := fun _ => false

/-- What happens next: something while the daemon is running; the daemon is stopped; it is started; and while it is not
running, the command of another unit, or a command that the daemon has left with the PCI gets on the network. -/
inductive Chance
  | on (x : Happening)
  | stop
  | start
  | switched (ga : UInt8) (order : Order)
  | passed

/-- The light for which there is a command on the network. -/
def Happening.about (w : Street) : Happening → Option UInt8
  | .switched ga _ => some ga
  | .passed => w.outbox.head?.map (·.1)
  | _ => none

/-- A daemon that has not been connected to anything. -/
def Fresh (c : Conn Client) : Prop := c.buf = [] ∧ c.st.nextConf < 20

/-- One thing after the other. A daemon that is stopped is not told of what it has not been told of yet; a daemon is
started when nothing of what another one has left is on its way. -/
inductive Lasts (u : UniTable) (loads : Bytes → Option JVal) (now : Nat → PyDateTime) (labels : List (Int × Str)) :
    Block → Chance → Block → Prop
  | on (b : Block) (x : Happening) (w : Street) (hu : b.up = true) (h : Goes u loads now b.street x w) :
      Lasts u loads now labels b (.on x) ⟨w, true, fun g => b.missed g && x.about b.street != some g⟩
  | stop (b : Block) (hu : b.up = true) :
      Lasts u loads now labels b .stop
        ⟨{ b.street with inbox := [] }, false, fun g => b.missed g || b.street.inbox.any (·.1 == g)⟩
  | start (b : Block) (c0 c : Conn Client) (rs : List (List (Eff MqttEff) × Py Unit)) (hu : b.up = false)
      (ho : b.street.outbox = []) (hf : Fresh c0) (h : daemonRun u loads now [.made, .broker labels] c0 = (c, rs)) :
      Lasts u loads now labels b .start
        ⟨{ b.street with daemon := c, shows := kept (rs.flatMap (·.1)) b.street.shows }, true, b.missed⟩
  | switched (b : Block) (ga : UInt8) (order : Order) (hu : b.up = false) (hk : order.Ok) :
      Lasts u loads now labels b (.switched ga order)
        ⟨{ b.street with lights := commanded (ga, order) b.street.lights }, false, fun g => b.missed g || g == ga⟩
  | passed (b : Block) (x : UInt8 × Order) (xs : List (UInt8 × Order)) (hu : b.up = false) (h : b.street.outbox = x :: xs) :
      Lasts u loads now labels b .passed
        ⟨{ b.street with outbox := xs, lights := commanded x b.street.lights }, false, fun g => b.missed g && g != x.1⟩

/-- A history, of all of which something is true. -/
inductive LastsOn (u : UniTable) (loads : Bytes → Option JVal) (now : Nat → PyDateTime) (labels : List (Int × Str))
    (P : Block → Chance → Prop) : Block → Block → Prop
  | refl (b : Block) : LastsOn u loads now labels P b b
  | step (b b1 b2 : Block) (x : Chance) (h : Lasts u loads now labels b x b1) (hp : P b x)
      (hr : LastsOn u loads now labels P b1 b2) : LastsOn u loads now labels P b b2

/-- Nothing crosses while the daemon is running (C126). -/
def Orderly (u : UniTable) (b : Block) : Chance → Prop
  | .on x => Uncrossed u b.street x
  | _ => True

/-- The claim: whenever the daemon is running and all is quiet, the broker shows what the lights are. -/
def C149_claim : Prop :=
  ∀ (u : UniTable) (loads : Bytes → Option JVal) (now : Nat → PyDateTime) (labels : List (Int × Str)) (b b' : Block),
    (∀ n, DateTimeOk (now n)) → b.up = true → Ready b.street.daemon → AllQuiet b.street → InStep b.street →
    LastsOn u loads now labels (Orderly u) b b' → b'.up = true → AllQuiet b'.street → InStep b'.street

/-! ## A start -/

theorem config_silent (ga : Int) (k : TopicKind) (hk : k ≠ .lightState) (g : Int) (v : JVal) (q : Nat) (r : Bool) :
    brightnessIn g (.publish (topicText k ga).toList (.json v) q r) = none := by
  cases v with
  | obj d =>
    refine if_neg fun h => ?_
    exact hk (C59_distinct k .lightState ga g (String.toList_inj.1 h)).1
  | _ => rfl

theorem meta_silent (g : Int) : brightnessIn g metaMessage = none := by
  refine if_neg fun h => ?_
  rw [← C59_text] at h
  have h1 := congrArg (fun l => l.take 20) h
  have h2 : (topicOf .lightState g).take 20 = "homeassistant/light/".toList := by
    show (("homeassistant/light/".toList ++ "cbus_".toList) ++ intStr g ++ _).take 20 = _
    rfl
  simp only [h2] at h1
  exact absurd h1 (by decide)

theorem configs_silent (labels : List (Int × Str)) (g : Int) (gas : List Int) :
    (gas.flatMap (configsOf labels)).filterMap (brightnessIn g) = [] := by
  induction gas with
  | nil => rfl
  | cons a gas ih =>
    rw [List.flatMap_cons, List.filterMap_append, ih, List.append_nil]
    unfold configsOf
    rw [List.filterMap_cons, config_silent a .lightConfig (by decide), List.filterMap_cons,
      config_silent a .sensorConfig (by decide)]
    rfl

/-- A start shows nothing, and makes the daemon ready. -/
theorem start_silent (u : UniTable) (loads : Bytes → Option JVal) (now : Nat → PyDateTime) (labels : List (Int × Str))
    (c0 c : Conn Client) (hf : Fresh c0) (rs : List (List (Eff MqttEff) × Py Unit))
    (h : daemonRun u loads now [.made, .broker labels] c0 = (c, rs)) (shows : UInt8 → Option JVal) :
    Ready c ∧ kept (rs.flatMap (·.1)) shows = shows := by
  obtain ⟨b, s⟩ := c0
  obtain ⟨hb, hk⟩ := hf
  simp only at hb hk
  subst hb
  obtain ⟨k1, k2, k3, -, h1⟩ := C46_connect (π := MqttEff) s hk
  simp only [daemonRun, daemonDo, daemonDo.onState, h1, C66_connect, Prod.mk.injEq] at h
  obtain ⟨rfl, rfl⟩ := h
  refine ⟨⟨⟨rfl, Nat.mod_lt _ (by decide)⟩, rfl, rfl⟩, ?_⟩
  funext g
  unfold kept shown
  have e : ∀ l : List (Eff MqttEff), messagesOf l = [] → ∀ ms : List MqttEff,
      messagesOf (([(l, (.ok () : Py Unit)), (ms.map Eff.ext, .ok ())]).flatMap (·.1)) = ms := by
    intro l hl ms
    simp only [List.flatMap_cons, List.flatMap_nil, List.append_nil]
    rw [messagesOf_append, hl, messagesOf_ext]
    rfl
  have e1 := e ([.write (ascii "~\r"), .write (ascii "~\r"), .write (ascii "~\r"),
      .write (ascii "A3210038" ++ [k1, 0x0d]), .write (ascii "A342000E" ++ [k2, 0x0d]),
      .write (ascii "A3300059" ++ [k3, 0x0d])] ++ (if s.timesync = 0 then [] else [.startTimesync])) (by
        split <;> rfl)
    (.subscribe (groupAddresses.map fun ga => ((topicText .lightSet ga).toList, 2)) ::
      metaMessage :: groupAddresses.flatMap (configsOf labels))
  rw [List.map_cons] at e1
  rw [e1]
  rw [List.filterMap_cons, show brightnessIn g.toNat (.subscribe _) = none from rfl, List.filterMap_cons, meta_silent,
    configs_silent]
  rfl

/-! ## The history -/

/-- The street without the lights that were missed. -/
def Block.seen (b : Block) : Street :=
  { b.street with lights := fun g => if b.missed g then none else b.street.lights g }

theorem seen_goes {u : UniTable} {loads : Bytes → Option JVal} {now : Nat → PyDateTime} {b : Block} {x : Happening} {w : Street}
    (h : Goes u loads now b.street x w) :
    Goes u loads now b.seen x (Block.seen ⟨w, true, fun g => b.missed g && x.about b.street != some g⟩) := by
  have same : ∀ x : Happening, x.about b.street = none → (fun g => b.missed g && x.about b.street != some g) = b.missed := by
    intro x hx
    funext g
    rw [hx]
    simp
  cases h with
  | message topic payload c o r xs h hx =>
    rw [same _ rfl]
    exact Goes.message b.seen topic payload c o r xs h hx
  | switched ga order hk =>
    have := Goes.switched (u := u) (loads := loads) (now := now) b.seen ga order hk
    have e : (Block.seen ⟨{ b.street with inbox := b.street.inbox ++ [(ga, order)], lights := commanded (ga, order) b.street.lights },
        true, fun g => b.missed g && (Happening.switched ga order).about b.street != some g⟩) =
        { b.seen with inbox := b.seen.inbox ++ [(ga, order)], lights := commanded (ga, order) b.seen.lights } := by
      have e' : (fun g => if (b.missed g && (Happening.switched ga order).about b.street != some g) = true then none
          else commanded (ga, order) b.street.lights g) = commanded (ga, order) b.seen.lights := by
        funext g
        simp only [commanded, Happening.about, Block.seen]
        by_cases hg : g = ga
        · subst hg
          simp
        · simp [hg, Ne.symm hg]
      rw [← e']
      rfl
    rw [e]
    exact this
  | passed x xs h =>
    have := Goes.passed (u := u) (loads := loads) (now := now) b.seen x xs h
    have e : (Block.seen ⟨{ b.street with outbox := xs, lights := commanded x b.street.lights },
        true, fun g => b.missed g && Happening.passed.about b.street != some g⟩) =
        { b.seen with outbox := xs, lights := commanded x b.seen.lights } := by
      have e' : (fun g => if (b.missed g && Happening.passed.about b.street != some g) = true then none
          else commanded x b.street.lights g) = commanded x b.seen.lights := by
        funext g
        simp only [commanded, Happening.about, h, List.head?_cons, Option.map_some, Block.seen]
        by_cases hg : g = x.1
        · subst hg
          simp
        · simp [hg, Ne.symm hg]
      rw [← e']
      rfl
    rw [e]
    exact this
  | told src line x xs h hl c o r hd =>
    rw [same _ rfl]
    exact Goes.told b.seen src line x xs h hl c o r hd
  | answered code x hc c o r hd =>
    rw [same _ rfl]
    exact Goes.answered b.seen code x hc c o r hd
  | tick c o r hd =>
    rw [same _ rfl]
    exact Goes.tick b.seen c o r hd

/-- What stays true. -/
def Tended (b : Block) : Prop :=
  (b.up = true → Ready b.street.daemon) ∧ Consistent { b.seen with daemon := readyDaemon } ∧
    (b.up = false → b.street.inbox = [])

theorem tended_step (u : UniTable) (loads : Bytes → Option JVal) (now : Nat → PyDateTime) (hnow : ∀ n, DateTimeOk (now n))
    (labels : List (Int × Str)) {b b' : Block} {x : Chance} (h : Lasts u loads now labels b x b') (hx : Orderly u b x)
    (hc : Tended b) : Tended b' := by
  obtain ⟨hr, ⟨hr0, hi⟩, hb⟩ := hc
  cases h with
  | on x w hu h =>
    have := consistent_step u loads now hnow (seen_goes h) (show Uncrossed u b.seen x from hx) ⟨hr hu, hi⟩
    exact ⟨fun _ => this.1, ⟨readyDaemon_ready, this.2⟩, fun h => by cases h⟩
  | stop hu =>
    refine ⟨fun h => by (simp at h), ⟨readyDaemon_ready, fun g => ?_⟩, fun _ => rfl⟩
    obtain ⟨i1, i2, i3, i4⟩ := hi g
    refine ⟨.inr rfl, i2, fun i h => by (simp [Block.seen, lastFor] at h), ?_⟩
    intro ho _ i hi
    simp only [Block.seen] at hi
    have hm : (b.missed g || b.street.inbox.any (·.1 == g)) = false := by
      by_cases hm : (b.missed g || b.street.inbox.any (·.1 == g)) = true
      · rw [hm] at hi; simp at hi
      · exact Bool.eq_false_iff.2 hm
    rw [hm] at hi
    obtain ⟨hm1, hm2⟩ := Bool.or_eq_false_iff.1 hm
    refine i4 ho (lastFor_none ?_) i ?_
    · intro y hy e
      have := List.any_eq_false.1 hm2 y hy
      simp [e] at this
    · simp only [Block.seen, hm1]
      exact hi
  | start c0 c rs hu ho hf h =>
    obtain ⟨h1, h2⟩ := start_silent u loads now labels c0 c hf rs h b.street.shows
    refine ⟨fun _ => h1, ⟨readyDaemon_ready, fun g => ?_⟩, fun h => by cases h⟩
    simp only [Block.seen, h2]
    exact hi g
  | switched ga order hu hk =>
    refine ⟨fun h => by (simp at h), ⟨readyDaemon_ready, fun g => ?_⟩, fun _ => hb hu⟩
    obtain ⟨i1, i2, i3, i4⟩ := hi g
    refine ⟨i1, i2, ?_, ?_⟩
    · intro i h
      simp only [Block.seen, hb hu] at h
      simp [lastFor] at h
    · intro ho hin i hi
      simp only [Block.seen, commanded] at hi
      by_cases hg : g = ga
      · simp [hg] at hi
      · simp only [if_neg hg, beq_eq_false_iff_ne.2 hg, Bool.or_false] at hi
        exact i4 ho hin i hi
  | passed x xs hu h =>
    have hp := Goes.passed (u := u) (loads := loads) (now := now) { b.seen with daemon := readyDaemon } x xs h
    have := consistent_step u loads now hnow hp (show Uncrossed u _ .passed from trivial) ⟨hr0, hi⟩
    refine ⟨fun h => by (simp at h), ⟨readyDaemon_ready, fun g => ?_⟩, fun _ => hb hu⟩
    have e : (Block.seen ⟨{ b.street with outbox := xs, lights := commanded x b.street.lights }, false,
        fun g => b.missed g && g != x.1⟩).lights = commanded x b.seen.lights := by
      unfold Block.seen
      funext g
      simp only [commanded]
      by_cases hg : g = x.1
      · subst hg
        simp
      · simp [hg]
    have := this.2 g
    rw [← e] at this
    exact this

/-- C149, without what is wrong: the broker shows, whenever all is quiet, what those lights are for which there was no
command while the daemon was away, or has been one since. -/
theorem C149_partial (u : UniTable) (loads : Bytes → Option JVal) (now : Nat → PyDateTime) (hnow : ∀ n, DateTimeOk (now n))
    (labels : List (Int × Str)) (b b' : Block) (hu : b.up = true) (hr : Ready b.street.daemon) (hq : AllQuiet b.street)
    (hs : ∀ g, b.missed g = false → ∀ i, b.street.lights g = some i → b.street.shows g = some (.num (.int i)))
    (h : LastsOn u loads now labels (Orderly u) b b') (hq' : AllQuiet b'.street) :
    ∀ g, b'.missed g = false → ∀ i, b'.street.lights g = some i → b'.street.shows g = some (.num (.int i)) := by
  have h0 : Tended b := by
    refine ⟨fun _ => hr, ⟨readyDaemon_ready, fun g => ?_⟩, fun h => by rw [hu] at h; cases h⟩
    show (lastFor g b.street.outbox = none ∨ lastFor g b.street.inbox = none) ∧ _
    rw [hq.1, hq.2]
    refine ⟨.inl rfl, ?_, ?_, ?_⟩
    · intro i h
      simp [Block.seen, hq.1, lastFor] at h
    · intro i h
      simp [Block.seen, hq.2, lastFor] at h
    · intro _ _ i hi
      simp only [Block.seen] at hi
      split at hi
      · cases hi
      · rename_i hm
        exact hs g (by simpa using hm) i hi
  have h1 : Tended b' := by
    clear hq hs hr hq' hu
    induction h with
    | refl => exact h0
    | step b b1 b2 x h hp _ ih => exact ih (tended_step u loads now hnow labels h hp h0)
  intro g hm i hi
  refine (h1.2.1.2 g).2.2.2 ?_ ?_ i ?_
  · show lastFor g b'.street.outbox = none
    rw [hq'.1]
    rfl
  · show lastFor g b'.street.inbox = none
    rw [hq'.2]
    rfl
  · show (if b'.missed g then none else b'.street.lights g) = some i
    rw [hm]
    exact hi

/-- While the daemon is running there is neither a message nor a command for the light. -/
def LeftAlone (u : UniTable) (g : UInt8) : Chance → Prop
  | .on (.message topic _) => ∀ ga, ForLight u topic ga → byteOf ga ≠ g
  | .on (.switched ga _) => ga ≠ g
  | _ => True

/-- C149, what is wrong: the daemon does not ask. However often it is started, and whatever is done to a light while it is
away, the same is shown until something is done to the light while it is there. -/
theorem C149_stays (u : UniTable) (loads : Bytes → Option JVal) (now : Nat → PyDateTime) (hnow : ∀ n, DateTimeOk (now n))
    (labels : List (Int × Str)) (g : UInt8) (b b' : Block) (hr : b.up = true → Ready b.street.daemon)
    (hq : ∀ x ∈ b.street.inbox, x.1 ≠ g) (h : LastsOn u loads now labels (fun _ x => LeftAlone u g x) b b') :
    b'.street.shows g = b.street.shows g := by
  induction h with
  | refl => rfl
  | step b b1 b2 x h hp _ ih =>
    have key : (b1.up = true → Ready b1.street.daemon) ∧ (∀ x ∈ b1.street.inbox, x.1 ≠ g) ∧
        b1.street.shows g = b.street.shows g := by
      cases h with
      | on x w hu h =>
        have hr := hr hu
        cases h with
        | message topic payload c o r xs h hx =>
          obtain ⟨h1, h2⟩ := street_message u loads now hnow _ hr topic payload c o r h
          refine ⟨fun _ => h1, hq, ?_⟩
          rcases h2 with ⟨-, h3⟩ | ⟨ga, order, line, h2, -, -, h5⟩
          · simp only [kept_nothing h3]
          · simp only [h5]
            rw [if_neg fun e => hp ga h2 e.symm]
        | switched ga order hk =>
          refine ⟨fun _ => hr, ?_, rfl⟩
          intro y hy
          rcases List.mem_append.1 hy with hy | hy
          · exact hq y hy
          · rw [List.mem_singleton.1 hy]
            exact hp
        | passed x xs h => exact ⟨fun _ => hr, hq, rfl⟩
        | told src line x xs h hl c o r hd =>
          obtain ⟨h1, h2⟩ := street_told u loads now hnow _ hr src x line hl c o r hd
          refine ⟨fun _ => h1, fun y hy => hq y (h ▸ List.mem_cons_of_mem _ hy), ?_⟩
          simp only [h2]
          rw [if_neg fun e => hq x (h ▸ List.mem_cons_self ..) e.symm]
        | answered code x hcode c o r hd =>
          rw [C125_told u loads now hnow _ hr.1 hr.2.2 code x hcode] at hd
          simp only [Prod.mk.injEq] at hd
          obtain ⟨rfl, rfl, rfl⟩ := hd
          refine ⟨fun _ => hr, hq, ?_⟩
          simp only [kept_nothing (show messagesOf [Eff.event (Event.confirmation [code] (x == 0x2e))] = [] from rfl)]
        | tick c o r hd =>
          obtain ⟨h1, h2⟩ := street_tick u loads now hnow _ hr c o r hd
          refine ⟨fun _ => h1, hq, ?_⟩
          simp only [kept_nothing h2]
      | stop hu => exact ⟨fun h => by (simp at h), fun y hy => absurd hy List.not_mem_nil, rfl⟩
      | start c0 c rs hu ho hf h =>
        obtain ⟨h1, h2⟩ := start_silent u loads now labels c0 c hf rs h b.street.shows
        refine ⟨fun _ => h1, hq, ?_⟩
        simp only [h2]
      | switched ga order hu hk => exact ⟨fun h => by (simp at h), hq, rfl⟩
      | passed x xs hu h => exact ⟨fun h => by (simp at h), hq, rfl⟩
    rw [ih key.1 key.2.1, key.2.2]

/-- Light 7 is on, and shown as such. -/
def litBlock : Block :=
  { street := { daemon := readyDaemon, lights := fun g => if g = 7 then some 255 else none,
                shows := fun g => if g = 7 then some (.num (.int 255)) else none } }

/-- The daemon is stopped, another unit switches light 7 off, and the daemon is started again. -/
theorem litBlock_later : ∃ b' : Block,
    LastsOn .ascii (CBus.Json.loads exampleEnv) (fun _ => someTime) [] (Orderly .ascii) litBlock b' ∧
      b'.up = true ∧ AllQuiet b'.street ∧ b'.street.lights 7 = some 0 ∧ b'.street.shows 7 = some (.num (.int 255)) := by
  generalize hu : UniTable.ascii = u
  generalize hl : CBus.Json.loads exampleEnv = loads
  generalize hn : (fun _ : Nat => someTime) = now
  have hf : Fresh (⟨[], {}⟩ : Conn Client) := ⟨rfl, by decide⟩
  obtain ⟨c, rs, hrun⟩ : ∃ c rs, daemonRun u loads now [.made, .broker []] ⟨[], {}⟩ = (c, rs) := ⟨_, _, rfl⟩
  refine ⟨_, .step _ _ _ _ (.stop litBlock rfl) trivial (.step _ _ _ _ (.switched _ 7 .off rfl trivial) trivial
    (.step _ _ _ _ (.start _ _ c rs rfl rfl hf hrun) trivial (.refl _))), rfl, ⟨rfl, rfl⟩, rfl, ?_⟩
  have := (start_silent u loads now [] _ c hf rs hrun litBlock.street.shows).2
  show kept _ litBlock.street.shows 7 = _
  rw [this]
  rfl

/-- C149 is false: the broker still shows the light as it was. -/
theorem C149_false : ¬ C149_claim := by
  intro h
  obtain ⟨b', h1, h2, h3, h4, h5⟩ := litBlock_later
  have := h .ascii _ _ [] litBlock b' (fun _ => someTime_ok) rfl readyDaemon_ready ⟨rfl, rfl⟩ (by
    intro g i hi
    simp only [litBlock] at hi ⊢
    by_cases hg : g = 7
    · rw [if_pos hg] at hi ⊢
      cases hi
      rfl
    · rw [if_neg hg] at hi
      cases hi) h1 h2 h3 7 0 h4
  rw [h5] at this
  exact absurd this (by decide)

/-- The note: light 7 was missed, and no other one. -/
example : ∃ b' : Block,
    LastsOn .ascii (CBus.Json.loads exampleEnv) (fun _ => someTime) [] (Orderly .ascii) litBlock b' ∧
      b'.missed 7 = true ∧ b'.missed 8 = false := by
  refine ⟨_, .step _ _ _ _ (.stop litBlock rfl) trivial (.step _ _ _ _ (.switched _ 7 .off rfl trivial) trivial (.refl _)), rfl, rfl⟩

end CBus.Props
