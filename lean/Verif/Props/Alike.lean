import Verif.Props.Street

/-! # C127: a light that is set through one daemon is shown alike by another -/

namespace CBus.Props
open CBus CBus.Spec

/-- C127: for every message on which a command is sent, the daemon shows the state, the level and the
binary sensor of one light; and another daemon, that is told of this command, shows the same, with the time that
the light takes for the time that was asked for. -/
theorem C127_alike (u : UniTable) (loads : Bytes → Option JVal) (now : Nat → PyDateTime) (hnow : ∀ n, DateTimeOk (now n))
    (a : Conn Client) (ha : Ready a) (topic : Str) (payload : Bytes) (a' : Conn Client) (o : List (Eff MqttEff)) (r : Py Unit)
    (h : daemonDo u loads now (.message topic payload) a = (a', o, r)) (line : Bytes) (hl : line ∈ writesOf o) :
    ∃ ga order on level asked takes sensor, ForLight u topic ga ∧ OrderLine (byteOf ga, order) line ∧
      messagesOf o = [stateMessage ga on (.int level) asked none, sensorMessage ga sensor] ∧ IsQuantised asked takes ∧
      ∀ (u' : UniTable) (loads' : Bytes → Option JVal) (now' : Nat → PyDateTime) (b : Conn Client) (src : UInt8) (heard : Bytes),
        (∀ n, DateTimeOk (now' n)) → Ready b → HeardLine src (byteOf ga, order) heard →
        ∃ b' o' r', daemonDo u' loads' now' (.receive heard) b = (b', o', r') ∧ r' = .ok () ∧ writesOf o' = [] ∧
          messagesOf o' = [stateMessage ga on (.int level) takes (some src.toNat), sensorMessage ga sensor] := by
  obtain ⟨hu, hm, hb⟩ := ha
  have e : daemonAt a.st (stateOf a) = a := by
    obtain ⟨b, s⟩ := a
    show (⟨b, { s with nextConf := s.nextConf % 20 }⟩ : Conn Client) = ⟨b, s⟩
    rw [Nat.mod_eq_of_lt hu.2]
  obtain ⟨o1, d', r1, h1, h2⟩ := does_total u loads now hnow a.st (.message topic payload) (stateOf a) (by rintro b h; cases h)
  rw [e, h] at h2
  simp only [Prod.mk.injEq] at h2
  obtain ⟨rfl, rfl, rfl⟩ := h2
  clear h
  generalize hd : stateOf a = d at h1
  cases h1 with
  | elsewhere => cases hl
  | unreadable => cases hl
  | meaningless => cases hl
  | down => cases hl
  | negative => cases hl
  | message _ _ _ ga v m body digits o ht hv hm hc hbr hs hsp ho =>
    have hg : 0 ≤ ga ∧ ga ≤ 255 := by
      obtain ⟨_, _, _, _, _, _, _, h⟩ := ht
      exact h
    have hga : ((byteOf ga).toNat : Int) = ga := by
      unfold byteOf
      rw [UInt8.toNat_ofNat']
      omega
    have hmsg : messagesOf (Eff.write (0x5c :: digits ++ [codeAt d.count.codes, 0x0d]) :: o.map Eff.ext) = o := by
      have : messagesOf (o.map Eff.ext) = o := messagesOf_ext o
      simpa [messagesOf] using this
    have hwr : line = 0x5c :: digits ++ [codeAt d.count.codes, 0x0d] := by
      simpa [writesOf, List.filterMap_map, Function.comp_def] using hl
    have hear : ∀ (order : Order) (u' : UniTable) (loads' : Bytes → Option JVal) (now' : Nat → PyDateTime) (b : Conn Client)
        (src : UInt8) (heard : Bytes), (∀ n, DateTimeOk (now' n)) → Ready b → HeardLine src (byteOf ga, order) heard →
        ∃ b' o' r', daemonDo u' loads' now' (.receive heard) b = (b', o', r') ∧ r' = .ok () ∧ writesOf o' = [] ∧
          messagesOf o' = eventMessages (order.event (some src.toNat) (byteOf ga)) := by
      intro order u' loads' now' b src heard hnow' hrb hh
      obtain ⟨hlen, p, h1, h2⟩ := heard_read hh
      refine ⟨_, _, _, hear_one u' loads' now' hnow' b hrb heard hlen p _ h1 h2 (order_noClock _ _ _), rfl, ?_, ?_⟩
      · simp [writesOf, List.filterMap_map, Function.comp_def]
      · have := messagesOf_ext (eventMessages (order.event (some src.toNat) (byteOf ga)))
        simpa [messagesOf] using this
    rw [hmsg, hwr]
    cases hs with
    | off hoff =>
      cases ho with
      | off =>
        refine ⟨ga, .off, false, 0, 0, 0, false, ht, ⟨digits, _, trivial, codeAt_isCode _, hsp, rfl⟩, rfl, ?_, ?_⟩
        · exact ⟨by decide, by decide, by decide⟩
        · have := hear .off
          simp only [Order.event, hga, eventMessages] at this
          exact this
      | on hh => rw [hoff] at hh; cases hh
      | ramp hh => rw [hoff] at hh; cases hh
    | on hon h255 h0 =>
      cases ho with
      | off hh => rw [hon] at hh; cases hh
      | on =>
        refine ⟨ga, .on, true, 255, 0, 0, true, ht, ⟨digits, _, trivial, codeAt_isCode _, hsp, rfl⟩, rfl, ?_, ?_⟩
        · exact ⟨by decide, by decide, by decide⟩
        · have := hear .on
          simp only [Order.event, hga, eventMessages] at this
          exact this
      | ramp _ hh => omega
    | ramp k q hon hlt hq hk =>
      cases ho with
      | off hh => rw [hon] at hh; cases hh
      | on _ h1 h2 => omega
      | ramp =>
        refine ⟨ga, .ramp k (byteOf (clamp m.brightness)), true, clamp m.brightness, max 0 m.transition, q, _, ht,
          ⟨digits, _, (List.getElem?_eq_some_iff.1 hk).1, codeAt_isCode _, hsp, rfl⟩, rfl, hq, ?_⟩
        have hl : ((byteOf (clamp m.brightness)).toNat : Int) = clamp m.brightness := by
          unfold byteOf
          rw [UInt8.toNat_ofNat']
          unfold clamp
          omega
        have hlit : Lit (.int (clamp m.brightness)) = decide (0 < m.brightness) := by
          unfold Lit PyNum.gtRat
          simp only [decide_eq_decide]
          rw [show (0 : Rat) = ((0 : Int) : Rat) from rfl, Rat.intCast_lt_intCast]
          unfold clamp
          omega
        have hkq : rampDurations.getD k 0 = q := by rw [List.getD_eq_getElem?_getD, hk]; rfl
        have := hear (.ramp k (byteOf (clamp m.brightness)))
        simp only [Order.event, hga, eventMessages, hl, hkq, hlit] at this
        exact this

/-- Five seconds are asked for; the light takes eight, which is what the other daemon shows. -/
example :
    let msg : DaemonStep := .message "homeassistant/light/cbus_7/set".toList
      (Json.utf8 "{\"state\": \"on\", \"brightness\": 100, \"transition\": 5}".toList)
    let o := (daemonDo .ascii (CBus.Json.loads exampleEnv) (fun _ => someTime) msg readyDaemon).2.1
    writesOf o = [ascii "\\053800120764" ++ ascii "46h\r"] ∧
    messagesOf o = [stateMessage 7 true (.int 100) 5 none, sensorMessage 7 true] ∧
    messagesOf (daemonDo .ascii (fun _ => none) (fun _ => someTime) (.receive (ascii "050938001207643D\r\n")) readyDaemon).2.1 =
      [stateMessage 7 true (.int 100) 8 (some 9), sensorMessage 7 true] := by decide +kernel

end CBus.Props
