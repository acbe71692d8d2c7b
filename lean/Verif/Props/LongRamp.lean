import Verif.Props.Client

/-! # C119: a ramp that C-Bus has no duration for is refused

pciprotocol.py:491-493 says of durations: "CBus only supports a limited number of fade durations, in
decreasing accuracy up to 17 minutes (1020 seconds). Durations longer than this will throw an error." -/

namespace CBus.Props
open CBus CBus.Spec
variable {π : Type}

/-- The claim: a connected client raises an exception for a longer duration. -/
def C119_claim (π : Type) : Prop :=
  ∀ (now : Nat → PyDateTime) (s : Client) (ga d : Int) (l : PyNum), s.connected = true → s.nextConf < 20 →
    (∀ n, DateTimeOk (now n)) → (ClientCall.ramp ga d l).Ok → 1020 < d →
    ∃ e, (runCall (π := π) now (.ramp ga d l) s).2.2 = .error e

/-- It never does. -/
theorem C119_never (now : Nat → PyDateTime) (hnow : ∀ n, DateTimeOk (now n)) (s : Client) (ga d : Int) (l : PyNum)
    (hc : s.connected = true) (hk : s.nextConf < 20) (hok : IsByte ga ∧ LevelNumOk l) :
    ¬ ∃ e, (runCall (π := π) now (.ramp ga d l) s).2.2 = .error e := by
  intro h
  rcases (C45_exactly now hnow (.ramp ga d l) trivial s hk).1 h with h | h
  · exact h hok
  · rw [hc] at h; cases h

theorem C119_false : ¬ C119_claim π := by
  intro h
  have hnow : ∀ n : Nat, DateTimeOk ((fun _ => ⟨⟨2024, 2, 29⟩, ⟨13, 1, 2, 0⟩⟩ : Nat → PyDateTime) n) := fun _ => by
    show DateTimeOk ⟨⟨2024, 2, 29⟩, ⟨13, 1, 2, 0⟩⟩; unfold DateTimeOk; decide
  exact C119_never (π := π) _ hnow { connected := true } 1 1021 (.int 255) rfl (by decide) (by decide)
    (h _ { connected := true } 1 1021 (.int 255) rfl (by decide) hnow (by decide) (by decide))

/-- What it does instead: every longer ramp is the ramp of 1020 seconds, in all that is written and
returned and in the state that is left. -/
theorem C119_slowest_partial (now : Nat → PyDateTime) (s : Client) (ga d : Int) (l : PyNum) (h : 1020 < d) :
    runCall (π := π) now (.ramp ga d l) s = runCall now (.ramp ga 1020 l) s := by
  have hd : durationToRampRate d = durationToRampRate 1020 := by
    have e : ∀ d, durationToRampRate d = durationSearch d durationToRate := fun _ => rfl
    rw [e, e, durationToRate_eq]
    have : ∀ k : Int, k ≤ 1020 → ¬ d ≤ k := by intro k hk; omega
    simp [durationSearch, this, lcRampSlowest]
  show Client.lightingGroupRamp ga d l s = Client.lightingGroupRamp ga 1020 l s
  have he : (SAL.lightRamp ga d l).encode = (SAL.lightRamp ga 1020 l).encode := by simp only [SAL.encode, hd]
  simp only [Client.lightingGroupRamp, mkLightRamp]
  cases checkGa ga with
  | error e => rfl
  | ok u =>
    have hp : ∀ x : Int, mkPM true .class4 none [.lightRamp ga x l] =
        .ok { checksum := true, prio := .class4, app := some appLighting, sals := [.lightRamp ga x l] } := fun _ => rfl
    simp only [bind, Except.bind, pure, Except.pure, Client.sendSals, hp]
    have hk : Packet.encodePacket (.pm { app := some appLighting, sals := [.lightRamp ga d l] }) =
        Packet.encodePacket (.pm { app := some appLighting, sals := [.lightRamp ga 1020 l] }) := by
      simp only [Packet.encodePacket, PM.encode, encodeSals, he]
    simp only [Client.send, hk]
    rfl

example : (runCall (π := Empty) (fun _ => ⟨⟨2024, 1, 1⟩, ⟨0, 0, 0, 0⟩⟩) (.ramp 7 3600 (.int 128)) { connected := true }).2 =
    ([.write (ascii "\\0538007A0780C2h\r")], .ok (some 0x68)) := by decide +kernel

/-- C44: a ramp for which no level is given (pciprotocol.py:477-478: `level: int = 255`) goes to the full
level, 0xFF: its frame ends with that byte and the checksum. -/
theorem C44_full (now : Nat → PyDateTime) (wd : PyDate → Nat) (hwd : ∀ d : PyDate, d.Valid → IsWeekday d (wd d))
    (hnow : ∀ n, DateTimeOk (now n)) (ga d : Int) (hok : IsByte ga) (s : Client) (hc : s.connected = true)
    (hk : s.nextConf < 20) :
    ∃ k c, ((Client.lightingGroupRamp ga d : Proc Client (Eff π) (Option UInt8)) s).2 =
        ([.write (0x5c :: b16encode ([0x05, 0x38, 0x00, byteOf (rampCode (rampDurations.idxOf (quantise d))),
          byteOf ga, 0xff, k]) ++ [c, 0x0d])], .ok (some c)) ∧
      SumsToZero [0x05, 0x38, 0x00, byteOf (rampCode (rampDurations.idxOf (quantise d))), byteOf ga, 0xff, k] ∧ cycleFrom s.nextConf 1 = [c] := by
  obtain ⟨k, c, h1, h2, h3⟩ := C44_one_command (π := π) now wd hwd hnow (.ramp ga d (.int 255))
    ⟨hok, by decide⟩ trivial s hc hk
  exact ⟨k, c, h1, h2, h3⟩

end CBus.Props
