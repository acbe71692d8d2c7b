import Verif.Model.Server
import Verif.Lemmas.Buffer
import Verif.Lemmas.Sal
import Verif.Props.RoundTrip

/-! # Lemmas about the simulated PCI -/

namespace CBus
open CBus.Spec CBus.Props

namespace Server

theorem serialize_pm {p : PM} {w : Bytes} (h : (Packet.pm p).encodePacket = .ok w) :
    serialize (.pm p) = .ok (w ++ [0x0d, 0x0a]) := by
  simp [serialize, h, endResponse]

theorem send_eq {cmd : Packet} {w : Bytes} (h : serialize cmd = .ok w) (s : Server) (hc : s.connected = true) :
    send cmd s = ({ s with queue := [] }, .write w :: s.queue.map .write, .ok ()) := by
  simp [send, h, writeOut, hc]

theorem sendConfirmation_eq {c : UInt8} (h : c ∈ confirmationCodes) (ok : Bool) (s : Server)
    (hc : s.connected = true) :
    sendConfirmation [c] ok s = ({ s with queue := [] },
      .write [c, if ok then 0x2e else 0x23] :: s.queue.map .write, .ok ()) := by
  have h1 : mkConfirmation [c] ok = .ok (.confirmation [c] ok) := by simp [mkConfirmation, h]
  have h2 : serialize (.confirmation [c] ok) = .ok [c, if ok then 0x2e else 0x23] := by
    cases ok <;> rfl
  simp only [sendConfirmation, h1]
  exact send_eq h2 s hc

/-- The packet for one SAL with a source address. -/
theorem eventPacket_ok (cs : Bool) (sal : SAL) (src : Int) :
    eventPacket cs (.ok sal) src =
      .ok (.pm { checksum := cs, app := some sal.application, sals := [sal], src := some src }) := rfl

theorem eventPm_ok (cs : Bool) (sal : SAL) (src : Int) (h : SalOk sal)
    (ha : (expectedHandler sal.application).isSome) :
    PmOk { checksum := cs, app := some sal.application, sals := [sal], src := some src } := by
  refine ⟨ha, ?_⟩
  intro x hx
  simp only [List.mem_singleton] at hx
  subst hx
  exact ⟨h, rfl⟩

/-- `random.randint(1, 100)`. -/
def RandOk (rand : Nat → Int) : Prop := ∀ n, 1 ≤ rand n ∧ rand n ≤ 100

/-- Every queued packet is a line. -/
def QueueLines (s : Server) : Prop := ∀ w ∈ s.queue, ∃ l, w = l ++ [0x0d, 0x0a]

theorem queueRandom_eq (rand : Nat → Int) (hr : RandOk rand) (mk : Int → Py SAL) (sal : Int → SAL)
    (hmk : ∀ g, IsByte g → mk g = .ok (sal g) ∧ SalOk (sal g) ∧ (sal g).application = appLighting) (s : Server) :
    ∃ w : Bytes, queueRandom rand mk s =
      ({ s with rngPos := s.rngPos + 2, queue := s.queue ++ [w ++ [0x0d, 0x0a]] },
        [.queued (w ++ [0x0d, 0x0a])], .ok ()) := by
  have hb : IsByte (rand s.rngPos) := by have := hr s.rngPos; unfold IsByte; omega
  obtain ⟨h1, h2, h3⟩ := hmk _ hb
  have hok := eventPm_ok s.checksum (sal (rand s.rngPos)) (rand (s.rngPos + 1)) h2 (by rw [h3]; decide)
  rw [h3] at hok
  obtain ⟨w, hw, -⟩ := C26_event _ hok (rand (s.rngPos + 1)) rfl (by have := hr (s.rngPos + 1); omega)
  refine ⟨w, ?_⟩
  simp only [queueRandom, h1, eventPacket_ok, h3, sendLater, serialize_pm hw]

theorem mkLightOn_spec (g : Int) (h : IsByte g) :
    mkLightOn g = .ok (.lightOn g) ∧ SalOk (.lightOn g) ∧ (SAL.lightOn g).application = appLighting :=
  ⟨by simp [mkLightOn, checkGa_byte h, bind, Except.bind, pure, Except.pure], h, rfl⟩

theorem mkLightOff_spec (g : Int) (h : IsByte g) :
    mkLightOff g = .ok (.lightOff g) ∧ SalOk (.lightOff g) ∧ (SAL.lightOff g).application = appLighting :=
  ⟨by simp [mkLightOff, checkGa_byte h, bind, Except.bind, pure, Except.pure], h, rfl⟩

/-- A clock update queues two lines. -/
theorem onClockUpdate_eq (rand : Nat → Int) (hr : RandOk rand) (v : ClockVal) (s : Server) :
    ∃ w1 w2, onClockUpdate rand v s =
      ({ s with rngPos := s.rngPos + 4, queue := s.queue ++ [w1 ++ [0x0d, 0x0a], w2 ++ [0x0d, 0x0a]] },
        [.event (.clockUpdate v), .queued (w1 ++ [0x0d, 0x0a]), .queued (w2 ++ [0x0d, 0x0a])], .ok ()) := by
  obtain ⟨w1, e1⟩ := queueRandom_eq rand hr mkLightOn .lightOn mkLightOn_spec s
  obtain ⟨w2, e2⟩ := queueRandom_eq rand hr mkLightOff .lightOff mkLightOff_spec
    { s with rngPos := s.rngPos + 2, queue := s.queue ++ [w1 ++ [0x0d, 0x0a]] }
  refine ⟨w1, w2, ?_⟩
  simp only [onClockUpdate, Proc.andThen, Proc.emit, e1, e2]
  simp

/-- The three lines of the presence report, in hexadecimal. -/
def block (x : Nat) : Bytes :=
  match standardCalEncodePacket true appStatusRequest x ((states.drop x).take 0x58) with
  | .ok w => w ++ [0x0d, 0x0a]
  | .error _ => []

theorem sendBlock_eq (x : Nat) (h : x = 0 ∨ x = 0x58 ∨ x = 0xb0) (s : Server) (hc : s.connected = true) :
    sendBlock x s = ({ s with queue := [] }, .write (block x) :: s.queue.map .write, .ok ()) := by
  have key : ∀ x : Nat, x = 0 ∨ x = 0x58 ∨ x = 0xb0 →
      ∃ w, standardCalEncodePacket true appStatusRequest x ((states.drop x).take 0x58) = .ok w := by
    rintro x (rfl | rfl | rfl)
    · exact ⟨_, rfl⟩
    · exact ⟨_, rfl⟩
    · exact ⟨_, rfl⟩
  obtain ⟨w, hw⟩ := key x h
  simp only [sendBlock, block, hw, writeOut, hc, if_true, endResponse]

theorem onMasterStatus_eq (ga : Int) (s : Server) (hc : s.connected = true) (hb : s.basic = true) :
    onMasterStatus ga s = ({ s with queue := [] },
      [.event (.masterStatus ga), .write (block 0)] ++ s.queue.map .write ++
        [.write (block 0x58), .write (block 0xb0)], .ok ()) := by
  simp only [onMasterStatus, Proc.andThen, Proc.emit, hb, if_true]
  rw [sendBlock_eq 0 (by simp) s hc]
  simp only
  rw [sendBlock_eq 0x58 (by simp) { s with queue := [] } hc]
  simp only
  simp only [List.map_nil]
  rw [sendBlock_eq 0xb0 (by simp) { s with queue := [] } hc]
  simp [hb]

end Server
end CBus
