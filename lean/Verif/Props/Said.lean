import Verif.Props.Outlet
import Verif.Props.Source
import Verif.Spec.Said

/-! # C128: every state that is shown has been said

By someone who sent a set message, or by the network in one line. -/

namespace CBus.Props
open CBus CBus.Spec

/-- The claim, for a daemon that has not received anything yet. -/
def C128_claim : Prop :=
  ∀ (u : UniTable) (loads : Bytes → Option JVal) (now : Nat → PyDateTime), (∀ n, DateTimeOk (now n)) →
  ∀ c : Conn Client, c.st.nextConf < 20 → c.buf = [] →
  ∀ (xs : List DaemonStep) (x : DaemonStep) (ys : List DaemonStep), OnlyConnected c.st.connected (xs ++ x :: ys) →
  ∀ o, ((daemonRun u loads now (xs ++ x :: ys) c).2.map (·.1))[xs.length]? = some o →
  ∀ ga t p q r, Eff.ext (.publish t p q r) ∈ o → ShowsState ga t → Said u (receivedIn xs) ga (.publish t p q r) x

theorem topic_eq {k k' : TopicKind} {ga ga' : Int} (h : (topicText k ga).toList = (topicText k' ga').toList) :
    k = k' ∧ ga = ga' := C59_distinct k k' ga ga' (String.toList_inj.1 h)

theorem pair_shows {ga ga' d : Int} {on on' : Bool} {l : PyNum} {src : Option Int} {t : Str} {p : MqttPayload} {q : Nat}
    {r : Bool} (hs : ShowsState ga t)
    (h : MqttEff.publish t p q r ∈ [stateMessage ga' on l d src, sensorMessage ga' on']) : ga = ga' := by
  simp only [List.mem_cons, List.not_mem_nil, or_false, stateMessage, sensorMessage, MqttEff.publish.injEq] at h
  rcases h with ⟨rfl, _⟩ | ⟨rfl, _⟩ <;> rcases hs with hs | hs
  · exact (topic_eq hs).2.symm
  · exact absurd (topic_eq hs).1 (by decide)
  · exact absurd (topic_eq hs).1 (by decide)
  · exact (topic_eq hs).2.symm

theorem event_moved {ga : Int} {t : Str} {p : MqttPayload} {q : Nat} {r : Bool} {e : Event} (hs : ShowsState ga t)
    (h : MqttEff.publish t p q r ∈ eventMessages e) : Moved ga e := by
  cases e with
  | lightingOn src ga' => exact pair_shows hs h ▸ .on src
  | lightingOff src ga' => exact pair_shows hs h ▸ .off src
  | lightingRamp src ga' d l => exact pair_shows hs h ▸ .ramp src d l
  | _ => simp [eventMessages] at h

theorem answers_about {m : SetMessage} {ga ga' : Int} {o : List MqttEff} {t : Str} {p : MqttPayload} {q : Nat} {r : Bool}
    (ha : Answers m ga' o) (hs : ShowsState ga t) (h : MqttEff.publish t p q r ∈ o) : ga = ga' := by
  cases ha with
  | off => exact pair_shows hs h
  | on => exact pair_shows hs h
  | ramp => exact pair_shows hs h

theorem configures_config {labels : List (Int × Str)} {gas : List Int} {o : List MqttEff} (h : Configures labels gas o)
    {t : Str} {p : MqttPayload} {q : Nat} {r : Bool} (hm : MqttEff.publish t p q r ∈ o) : "/config".toList <:+ t := by
  induction h with
  | nil => cases hm
  | cons ga gas v w o _ _ _ ih =>
    rcases List.mem_cons.1 hm with hm | hm
    · cases hm; exact topic_suffix .lightConfig ga
    rcases List.mem_cons.1 hm with hm | hm
    · cases hm; exact topic_suffix .sensorConfig ga
    · exact ih hm

theorem announces_config {labels : List (Int × Str)} {o : List MqttEff} (h : Announces labels o)
    {t : Str} {p : MqttPayload} {q : Nat} {r : Bool} (hm : MqttEff.publish t p q r ∈ o) : "/config".toList <:+ t := by
  cases h with
  | all v o hv h =>
    rcases List.mem_cons.1 hm with hm | hm
    · cases hm
    rcases List.mem_cons.1 hm with hm | hm
    · cases hm; decide +kernel
    · exact configures_config h hm

theorem shows_not_config {ga : Int} {t : Str} (hs : ShowsState ga t) : ¬ "/config".toList <:+ t := by
  have h : "/state".toList <:+ t := by
    rcases hs with rfl | rfl
    · exact topic_suffix .lightState ga
    · exact topic_suffix .sensorState ga
  intro hc
  have := List.suffix_of_suffix_length_le h hc (by decide)
  exact absurd this (by decide)

theorem hears_rest {m : Manner MqttEff} {d d' : Bytes} {k k' : Count} {o : List (Eff MqttEff)} {r : Py Unit}
    (h : Hears m d k o d' k' r) : d' <:+ d := by
  induction h with
  | waits => exact List.suffix_rfl
  | fault => exact List.suffix_rfl
  | skips d n _ _ _ _ _ _ _ _ ih => exact ih.trans (List.drop_suffix n d)
  | message d _ n _ _ _ _ _ _ _ _ _ _ ih => exact ih.trans (List.drop_suffix n d)

/-- What is kept of what was received is the end of it, unless a piece was too large. -/
theorem converses_rest {m : Manner MqttEff} {b b' d : Bytes} {k k' : Count} {o : List (Eff MqttEff)} {r : Py Unit}
    (h : Converses m b k [d] o b' k' r) (hd : d.length ≤ 256) : b' <:+ b ++ d := by
  cases h with
  | huge => omega
  | overflow => exact List.nil_suffix
  | ends _ _ _ _ _ _ _ _ _ h => exact hears_rest h
  | goesOn _ _ _ _ _ _ _ _ _ _ _ _ h hr => cases hr; exact hears_rest h

theorem converses_reported {m : Manner MqttEff} (hm : ∀ e, m.says e ⊆ eventMessages e) {b b' d : Bytes} {k k' : Count}
    {o : List (Eff MqttEff)} {r : Py Unit} (h : Converses m b k [d] o b' k' r) : Reported (b ++ d) o := by
  cases h with
  | huge => intro x hx; cases hx
  | overflow => intro x hx; cases hx
  | ends _ _ _ _ _ _ _ _ _ h => exact hears_reported hm h
  | goesOn _ _ _ _ _ _ _ _ _ _ _ _ h hr => cases hr; rw [List.append_nil]; exact hears_reported hm h

theorem ext_mem {m : MqttEff} {l : List MqttEff} (h : Eff.ext m ∈ l.map Eff.ext) : m ∈ l := by
  obtain ⟨y, h1, h2⟩ := List.mem_map.1 h
  cases h2
  exact h1

theorem does_said {u : UniTable} {read : Bytes → JVal → Prop} {now : Nat → PyDateTime} {ts : Int} {x : DaemonStep}
    {d d' : DaemonState} {o : List (Eff MqttEff)} {r : Py Unit} (h : Does u read now ts x d o d' r) {before : Bytes}
    (hb : d.buffer <:+ before) {ga : Int} {t : Str} {p : MqttPayload} {q : Nat} {k : Bool}
    (hm : Eff.ext (.publish t p q k) ∈ o) (hs : ShowsState ga t) : Said u before ga (.publish t p q k) x := by
  cases h with
  | made =>
    simp only [setUp, List.mem_append, List.mem_cons, List.not_mem_nil, or_false, reduceCtorEq, false_or] at hm
    split at hm <;> simp at hm
  | receive _ b b' _ k' _ h =>
    have hw : ∀ e, (if d.broker then eventMessages e else []) ⊆ eventMessages e := by
      intro e x hx
      split at hx
      · exact hx
      · cases hx
    obtain ⟨line, e, h1, h2, h3⟩ := converses_reported (m := ⟨true, _, now⟩) hw h _ hm
    obtain ⟨z, rfl⟩ := hb
    refine .heard _ line e (h1.trans ?_) h2 (event_moved hs h3) h3
    exact ⟨z, [], by simp⟩
  | tick => simp at hm
  | broker _ labels _ h => exact absurd (announces_config h (ext_mem hm)) (shows_not_config hs)
  | message =>
    rcases List.mem_cons.1 hm with hm | hm
    · cases hm
    · have := answers_about ‹Answers _ _ _› hs (ext_mem hm)
      subst this
      exact .asked _ _ ‹_›
  | _ => cases hm

theorem does_buffer {u : UniTable} {read : Bytes → JVal → Prop} {now : Nat → PyDateTime} {ts : Int} {x : DaemonStep}
    {d d' : DaemonState} {o : List (Eff MqttEff)} {r : Py Unit} (h : Does u read now ts x d o d' r) {before : Bytes}
    (hb : d.buffer <:+ before) (hx : ∀ b, x = .receive b → b.length ≤ 256) : d'.buffer <:+ before ++ receivedIn [x] := by
  cases h with
  | receive _ b b' _ _ _ h =>
    obtain ⟨z, rfl⟩ := hb
    refine (converses_rest h (hx _ rfl)).trans ⟨z, ?_⟩
    simp [receivedIn]
  | _ => simpa [receivedIn] using hb

theorem receivedIn_cons (x : DaemonStep) (xs : List DaemonStep) : receivedIn (x :: xs) = receivedIn [x] ++ receivedIn xs := by
  cases x <;> simp [receivedIn]

theorem lives_said {u : UniTable} {read : Bytes → JVal → Prop} {now : Nat → PyDateTime} {ts : Int}
    {zs : List DaemonStep} {d d' : DaemonState} {os : List (List (Eff MqttEff) × Py Unit)}
    (h : Lives u read now ts zs d os d') : ∀ (xs : List DaemonStep) (x : DaemonStep) (ys : List DaemonStep) (before : Bytes),
    zs = xs ++ x :: ys → d.buffer <:+ before → (∀ b, .receive b ∈ xs → b.length ≤ 256) →
    ∀ o, (os.map (·.1))[xs.length]? = some o → ∀ ga t p q r, Eff.ext (.publish t p q r) ∈ o → ShowsState ga t →
      Said u (before ++ receivedIn xs) ga (.publish t p q r) x := by
  induction h with
  | nil => intro xs x ys _ h; simp at h
  | cons z zs d d1 d2 o' r' os h _ ih =>
    intro xs x ys before hz hb hx o ho ga t p q r hm hs
    cases xs with
    | nil =>
      cases hz
      cases ho
      simpa [receivedIn] using does_said h hb hm hs
    | cons y xs =>
      cases hz
      have h1 := does_buffer h hb (fun b e => hx b (e ▸ List.mem_cons_self))
      have := ih xs x ys (before ++ receivedIn [z]) rfl h1 (fun b hb => hx b (List.mem_cons_of_mem _ hb)) o
        (by simpa using ho) ga t p q r hm hs
      rw [receivedIn_cons, ← List.append_assoc]
      exact this

/-- C128 as far as it holds: if before the step nothing was received that is larger than the buffer. -/
theorem C128_partial (u : UniTable) (loads : Bytes → Option JVal) (now : Nat → PyDateTime) (hnow : ∀ n, DateTimeOk (now n))
    (c : Conn Client) (hk : c.st.nextConf < 20) (hb : c.buf = []) (xs : List DaemonStep) (x : DaemonStep)
    (ys : List DaemonStep) (hx : OnlyConnected c.st.connected (xs ++ x :: ys)) (hl : ∀ b, .receive b ∈ xs → b.length ≤ 256)
    (o : List (Eff MqttEff)) (ho : ((daemonRun u loads now (xs ++ x :: ys) c).2.map (·.1))[xs.length]? = some o)
    (ga : Int) (t : Str) (p : MqttPayload) (q : Nat) (r : Bool) (hm : Eff.ext (.publish t p q r) ∈ o)
    (hs : ShowsState ga t) : Said u (receivedIn xs) ga (.publish t p q r) x := by
  obtain ⟨d, h, _⟩ := (C104_daemon u loads now hnow c hk _ hx (daemonRun u loads now (xs ++ x :: ys) c).1
    (daemonRun u loads now (xs ++ x :: ys) c).2).1 rfl
  exact lives_said h xs x ys [] rfl (by show c.buf <:+ []; rw [hb]; exact List.suffix_rfl) hl o ho ga t p q r hm hs

theorem receivedIn_append (xs ys : List DaemonStep) : receivedIn (xs ++ ys) = receivedIn xs ++ receivedIn ys := by
  induction xs with
  | nil => rfl
  | cons x xs ih => rw [List.cons_append, receivedIn_cons, ih, receivedIn_cons x xs, List.append_assoc]

/-- So of a light of which nobody says anything since the daemon was started nothing is shown, whatever
else is received (reports about the state of the light among it): the daemon does not find out how the
lights are when it starts. -/
theorem C128_unknown_partial (u : UniTable) (loads : Bytes → Option JVal) (now : Nat → PyDateTime)
    (hnow : ∀ n, DateTimeOk (now n)) (c : Conn Client) (hk : c.st.nextConf < 20) (hb : c.buf = []) (xs : List DaemonStep)
    (hx : OnlyConnected c.st.connected xs) (hl : ∀ b, .receive b ∈ xs → b.length ≤ 256) (ga : Int)
    (ha : ∀ topic payload, .message topic payload ∈ xs → ¬ ForLight u topic ga)
    (hh : ∀ line e, line ++ [0x0d, 0x0a] <:+: receivedIn xs → LineSays line e → ¬ Moved ga e) :
    ∀ o ∈ (daemonRun u loads now xs c).2, ∀ t p q r, Eff.ext (.publish t p q r) ∈ o.1 → ¬ ShowsState ga t := by
  intro o ho t p q r hm hs
  obtain ⟨i, hi, rfl⟩ := List.mem_iff_getElem.1 ho
  have hlen := daemonRun_length u loads now xs c
  have hi' : i < xs.length := by omega
  have hsplit : xs = xs.take i ++ xs[i] :: xs.drop (i + 1) := by
    rw [List.getElem_cons_drop, List.take_append_drop]
  have h := C128_partial u loads now hnow c hk hb (xs.take i) xs[i] (xs.drop (i + 1)) (hsplit ▸ hx)
    (fun b h => hl b (List.mem_of_mem_take h)) _
    (by rw [← hsplit, List.length_take, Nat.min_eq_left (by omega), List.getElem?_map, List.getElem?_eq_getElem hi]; rfl)
    ga t p q r hm hs
  have hmem : xs[i] ∈ xs := List.getElem_mem hi'
  generalize xs[i] = x at h hsplit hmem
  cases h with
  | asked topic payload h => exact ha _ _ hmem h
  | heard d line e h h1 h2 _ =>
    refine hh line e (h.trans ?_) h1 h2
    have : receivedIn xs = receivedIn (xs.take i) ++ d ++ receivedIn (xs.drop (i + 1)) := by
      conv => lhs; rw [hsplit]
      rw [receivedIn_append, List.append_assoc]
      rfl
    rw [this]
    exact ⟨[], receivedIn (xs.drop (i + 1)), rfl⟩

/-- A history in which a piece is larger than the buffer: unit 5 switches group 2 on, others dim group 7,
unit 0x7D switches group 1 off. The piece is dropped, but not what is in the buffer, so that the first
half of the first line meets the second half of the last. -/
def firstHalf : Bytes := ascii "0505380079"
def tooMuch : Bytes := ascii "0243\r\n" ++ (List.replicate 17 (ascii "050938001207643D\r\n")).flatten ++ ascii "057D380001"
def secondHalf : Bytes := ascii "0144\r\n"

/-- The bytes are those of a lighting message of unit 5 only if they switch group 2 on. -/
def fromFive : Py Bytes → Bool
  | .ok (_ :: a :: b :: m) => a != 0x05 || b != 0x38 || m == [0x00, 0x79, 0x02, 0x43]
  | _ => true

theorem only_first (i : Fin 400) (f : UInt8) (m : Bytes)
    (he : b16decode (((firstHalf ++ tooMuch ++ secondHalf).drop i.1).takeWhile (· != 0x0d)) = .ok (f :: 0x05 :: 0x38 :: m)) :
    m = [0x00, 0x79, 0x02, 0x43] := by
  have h : ∀ i : Fin 400,
      fromFive (b16decode (((firstHalf ++ tooMuch ++ secondHalf).drop i.1).takeWhile (· != 0x0d))) = true := by
    decide +kernel
  have := h i
  rw [he] at this
  simpa [fromFive] using this

theorem joined_says {line : Bytes} {e : Event} (h : line ++ [0x0d, 0x0a] <:+: firstHalf ++ tooMuch ++ secondHalf)
    (hs : LineSays line e) (hf : ∃ ga d l, e = .lightingOn (some 5) ga ∨ e = .lightingOff (some 5) ga ∨
      e = .lightingRamp (some 5) ga d l) : e = .lightingOn (some 5) 2 := by
  obtain ⟨flags, src, x, data, sals, s, h1, h2, _, _, h5, h6, h7⟩ := hs
  have hsrc : src = 0x05 := by
    have key : ∀ o : Option Int, salEvent o s = some e → o = some 5 := by
      intro o ho
      obtain ⟨ga, d, l, rfl | rfl | rfl⟩ := hf <;> cases s <;> simp_all [salEvent]
    have := key _ h7
    split at this
    · cases this
    · injection this with this
      apply UInt8.toNat_inj.1
      show src.toNat = 5
      omega
  subst hsrc
  have hcr : ∀ c ∈ line, (c != 0x0d) = true := by
    intro c hc
    have := hexPairs_digits h1 c hc
    revert this
    revert c
    have : ∀ c : UInt8, HexDigit c → (c != 0x0d) = true := by apply forall_byte; unfold HexDigit; decide +kernel
    exact fun c _ => this c
  obtain ⟨a, z, hz⟩ := h
  have hd : ((firstHalf ++ tooMuch ++ secondHalf).drop a.length).takeWhile (· != 0x0d) = line := by
    rw [← hz, List.append_assoc, List.drop_left, List.append_assoc, List.takeWhile_append_of_pos hcr]
    simp
  have hl : a.length < 400 := by
    have h1 := congrArg List.length hz
    have h2 : (firstHalf ++ tooMuch ++ secondHalf).length < 400 := by decide +kernel
    rw [← h1] at h2
    simp only [List.length_append] at h2
    omega
  have hm := only_first ⟨a.length, hl⟩ flags (0x00 :: data ++ [x]) (by
    show b16decode (((firstHalf ++ tooMuch ++ secondHalf).drop a.length).takeWhile (· != 0x0d)) = _
    rw [hd]
    exact (b16decode_iff _ _).2 h1)
  have hdata : data = [0x79, 0x02] := by
    simp only [List.cons_append, List.cons.injEq, true_and] at hm
    have : data ++ [x] = [0x79, 0x02] ++ [0x43] := hm
    exact (List.append_inj' this rfl).1
  subst hdata
  have h8 : Except.ok sals = (Except.ok [SAL.lightOn 2] : Py (List SAL)) := by
    rw [← (C98_applications .lighting _ _).2 h5]
    decide +kernel
  injection h8 with h8
  subst h8
  cases List.mem_singleton.1 h6
  simp [salEvent] at h7
  exact h7.symm

/-- It is false: group 1 is shown to be switched on by unit 5, which nobody has done; unit 0x7D has switched
it off. -/
theorem C128_false : ¬ C128_claim := by
  intro h
  have ho : ((daemonRun .ascii (fun _ => none) (fun _ => someTime) ([.receive firstHalf, .receive tooMuch] ++ [.receive secondHalf])
      ⟨[], { connected := true, mqttApi := true }⟩).2.map (·.1))[2]? =
      some (.event (.lightingOn (some 5) 1) :: (eventMessages (.lightingOn (some 5) 1)).map .ext) := by decide +kernel
  have := h .ascii (fun _ => none) (fun _ => someTime) (fun _ => someTime_ok)
    ⟨[], { connected := true, mqttApi := true }⟩ (by decide) rfl [.receive firstHalf, .receive tooMuch] (.receive secondHalf) []
    (.receive _ _ (.receive _ _ (.receive _ _ (.nil _)))) _ ho 1 _ _ _ _ (List.mem_cons_of_mem _ List.mem_cons_self)
    (.inl rfl)
  cases this with
  | heard _ line e h1 h2 h3 h4 =>
    have h1' : line ++ [0x0d, 0x0a] <:+: firstHalf ++ tooMuch ++ secondHalf := by
      simpa [receivedIn] using h1
    have hf : ∃ ga d l, e = .lightingOn (some 5) ga ∨ e = .lightingOff (some 5) ga ∨ e = .lightingRamp (some 5) ga d l := by
      cases h3 with
      | on src => cases src <;> simp [eventMessages, stateMessage, sensorMessage] at h4; exact ⟨1, 0, .int 0, .inl (by rw [h4])⟩
      | off src => simp [eventMessages, stateMessage, sensorMessage] at h4
      | ramp src d l =>
        refine ⟨1, d, l, .inr (.inr ?_)⟩
        cases src <;> simp [eventMessages, stateMessage, sensorMessage] at h4
        rw [h4.2.2]
    have := joined_says h1' h2 hf
    subst this
    cases h3

/-- The same in smaller pieces, and a report with the states of groups (C124): nothing is shown of it. -/
example : ((daemonRun .ascii (fun _ => none) (fun _ => someTime)
      [.receive (ascii "05053800790243\r\n"), .receive (ascii "057D380001"), .receive secondHalf,
       .receive (ascii "86999900F9003800A8AA0200000000000000000000000000000000000000C3\r\n")]
      ⟨[], { connected := true, mqttApi := true }⟩).2.map fun o => messagesOf o.1) =
    [eventMessages (.lightingOn (some 5) 2), [], eventMessages (.lightingOff (some 0x7d) 1), []] ∧
    LineSays (ascii "057D3800010144") (.lightingOff (some 0x7d) 1) := by
  refine ⟨by decide +kernel, 0x05, 0x7d, 0x44, [0x01, 0x01], [.lightOff 1], .lightOff 1, (b16decode_iff _ _).1 (by decide +kernel),
    by unfold SumsToZero; decide, by decide, by decide, ?_, by simp, rfl⟩
  exact (C98_applications .lighting _ _).1 (by decide +kernel)

end CBus.Props
