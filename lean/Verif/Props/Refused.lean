import Verif.Props.Notice
import Verif.Props.Outlet

/-! # C125: a command that the PCI refuses is not taken for carried out -/

namespace CBus.Props
open CBus CBus.Spec

/-- Something is done about it: a line is sent to the PCI or a message to the broker. -/
def Reacts (o : List (Eff MqttEff)) : Prop := (∃ line, Eff.write line ∈ o) ∨ ∃ m, Eff.ext m ∈ o

/-- The claim: when the PCI refuses a command that was given for a message from the broker, the
daemon sends it again or tells the broker. The PCI refuses a command with its confirmation code and
another character than a full stop. -/
def C125_claim : Prop :=
  ∀ (u : UniTable) (loads : Bytes → Option JVal) (now : Nat → PyDateTime) (c : Conn Client) (topic : Str) (payload : Bytes)
    (line : Bytes) (code x : UInt8), (∀ n, DateTimeOk (now n)) → Up c.st → c.st.mqttApi = true → c.buf = [] →
    Eff.write line ∈ (daemonDo u loads now (.message topic payload) c).2.1 → confirmationOf line = some code → x ≠ 0x2e →
    Reacts (daemonDo u loads now (.receive [code, x]) (daemonDo u loads now (.message topic payload) c).1).2.1

/-- C125, what there is: a confirmation, good or bad, is passed to `on_confirmation` with its code, and
nothing else is done. -/
theorem C125_told (u : UniTable) (loads : Bytes → Option JVal) (now : Nat → PyDateTime) (hnow : ∀ n, DateTimeOk (now n))
    (c : Conn Client) (hu : Up c.st) (hb : c.buf = []) (code x : UInt8) (hc : Code code) :
    daemonDo u loads now (.receive [code, x]) c = (c, [.event (.confirmation [code] (x == 0x2e))], .ok ()) := by
  obtain ⟨b, s⟩ := c
  simp only at hb hu
  subst hb
  have hp : FromPci true true [code, x] (some (.confirmation [code] (x == 0x2e)), 2) := by
    by_cases hx : x = 0x2e
    · subst hx; exact .confirmed code [] hc
    · have : (x == 0x2e) = false := by simpa using hx
      rw [this]; exact .refused code x [] hc hx
  let m : Manner MqttEff := ⟨true, fun e => if s.mqttApi then eventMessages e else [], now⟩
  let k : Count := ⟨s.nextConf, s.clockReads⟩
  have h1 : Handles m [.confirmation [code] (x == 0x2e)] k [.event (.confirmation [code] (x == 0x2e))] k := by
    have h := Handles.other (m := m) (.confirmation [code] (x == 0x2e)) [] k k [] (by simp) (.nil k)
    have e : m.says (.confirmation [code] (x == 0x2e)) = [] := by
      show (if s.mqttApi then eventMessages (.confirmation [code] (x == 0x2e)) else []) = []
      split <;> rfl
    rw [e] at h
    exact h
  have hh : Hears m ([] ++ [code, x]) k ([.event (.confirmation [code] (x == 0x2e))] ++ []) [] k (.ok ()) :=
    .message _ _ 2 k k k _ [] [] _ hp h1 (.waits [] k empty_waits)
  have hcv := Converses.goesOn [] k k k [code, x] [] _ [] [] [] (.ok ()) (by simp) hh (.silence [] _)
  have hf := (C102_daemon now hnow s hu [] [[code, x]] ⟨[], s⟩ _ (.ok ())).2 ⟨k, hcv, by
    show _ = ({ s with nextConf := s.nextConf % 20 } : Client)
    rw [Nat.mod_eq_of_lt hu.2]⟩
  have e : feed maxBufferSize (Client.handle (Mqtt.cbusHook now)) [[code, x]] ⟨[], s⟩ =
      Client.dataReceived (Mqtt.cbusHook now) [code, x] ⟨[], s⟩ := by
    simp only [feed, Client.dataReceived, Proc.andThen]
    generalize CBus.dataReceived maxBufferSize (Client.handle (Mqtt.cbusHook now)) [code, x] ⟨[], s⟩ = z
    obtain ⟨z1, z2, z3⟩ := z
    cases z3 <;> simp
  rw [e] at hf
  simpa [daemonDo] using hf

/-- C125 is false of every refused command: the broker goes on showing what was not carried out. -/
theorem C125_ignored (u : UniTable) (loads : Bytes → Option JVal) (now : Nat → PyDateTime) (hnow : ∀ n, DateTimeOk (now n))
    (c : Conn Client) (hu : Up c.st) (hb : c.buf = []) (code x : UInt8) (hc : Code code) :
    ¬ Reacts (daemonDo u loads now (.receive [code, x]) c).2.1 := by
  rw [C125_told u loads now hnow c hu hb code x hc]
  rintro (⟨line, h⟩ | ⟨m, h⟩) <;> cases List.mem_singleton.1 h

/-- C125, for the handler: for every message on which a command is sent, `on_confirmation` is called with
the code of that command and told whether the PCI has accepted it. -/
theorem C125_partial (u : UniTable) (loads : Bytes → Option JVal) (now : Nat → PyDateTime) (hnow : ∀ n, DateTimeOk (now n))
    (c : Conn Client) (hu : Up c.st) (hb : c.buf = []) (topic : Str) (payload line : Bytes) (x : UInt8)
    (h : Eff.write line ∈ (daemonDo u loads now (.message topic payload) c).2.1) :
    ∃ code, confirmationOf line = some code ∧
      (daemonDo u loads now (.receive [code, x]) (daemonDo u loads now (.message topic payload) c).1).2 =
        ([.event (.confirmation [code] (x == 0x2e))], .ok ()) := by
  have e : daemonAt c.st (stateOf c) = c := by
    obtain ⟨b, s⟩ := c
    show (⟨b, { s with nextConf := s.nextConf % 20 }⟩ : Conn Client) = ⟨b, s⟩
    rw [Nat.mod_eq_of_lt hu.2]
  obtain ⟨o, d', r, h1, h2⟩ := does_total u loads now hnow c.st (.message topic payload) (stateOf c) (by rintro b h; cases h)
  rw [e] at h2
  rw [h2] at h ⊢
  simp only at h ⊢
  cases h1 <;> first | (cases h; done) | skip
  rename_i ga v m body digits o ht hv hm hcn hb' hsb hs ho
  simp only [List.mem_cons, Eff.write.injEq] at h
  rcases h with h | h
  · refine ⟨codeAt (stateOf c).count.codes, ?_, ?_⟩
    · rw [h, confirmationOf, List.reverse_append]
      have := codeAt_isCode (stateOf c).count.codes
      simp only [List.reverse_cons, List.reverse_nil, List.nil_append, List.cons_append]
      rw [if_pos ⟨this.1, this.2⟩]
    · have hu' : Up (daemonAt c.st { stateOf c with count := ⟨(stateOf c).count.codes + 1, (stateOf c).count.reads⟩ }).st :=
        ⟨hu.1, Nat.mod_lt _ (by decide)⟩
      exact congrArg Prod.snd (C125_told u loads now hnow _ hu' hb _ x
        (codeAt_isCode _))
  · exact absurd h not_write_ext

/-- C125 is false: a message switches a light off, the PCI refuses the command. -/
theorem C125_false : ¬ C125_claim := by
  intro h
  refine C125_ignored .ascii (CBus.Json.loads exampleEnv) (fun _ => someTime) (fun _ => someTime_ok) _ ?_ ?_ 0x68 0x23 ?_
    (h .ascii (CBus.Json.loads exampleEnv) (fun _ => someTime) ⟨[], { connected := true, mqttApi := true }⟩
      "homeassistant/light/cbus_7/set".toList (Json.utf8 "{\"state\": \"off\"}".toList) (ascii "\\0538000107BBh\r") 0x68 0x23
      (fun _ => someTime_ok) ⟨rfl, by decide⟩ rfl rfl ?_ (by decide) (by decide))
  · exact ⟨by decide +kernel, by decide +kernel⟩
  · decide +kernel
  · exact ⟨by decide, by decide⟩
  · decide +kernel

/-- A light is switched off, the PCI refuses, and the light is shown as off. -/
example :
    let c : Conn Client := ⟨[], { connected := true, mqttApi := true }⟩
    let steps : List DaemonStep := [.message "homeassistant/light/cbus_7/set".toList (Json.utf8 "{\"state\": \"off\"}".toList),
      .receive (ascii "h#")]
    ((daemonRun .ascii (CBus.Json.loads exampleEnv) (fun _ => someTime) steps c).2.map fun y =>
      y.1.filterMap fun e => match e with | .write b => some (some b) | .event (.confirmation _ false) => some none | _ => none) =
      [[some (ascii "\\0538000107BBh\r")], [none]] := by decide +kernel

end CBus.Props
