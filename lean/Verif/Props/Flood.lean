import Verif.Props.EndToEnd
import Verif.Props.ServerMain

/-! # C156: commands that are sent at once -/

namespace CBus.Props
open CBus CBus.Spec
variable {π : Type}

/-- The claim: C55 however the commands are cut into pieces. -/
def C156_claim : Prop :=
  ∀ (rand : Nat → Int) (_ : Server.RandOk rand) (now : Nat → PyDateTime) (_ : ∀ n, DateTimeOk (now n)) (calls : List ClientCall)
    (_ : ∀ k ∈ calls, IsBroadcast k ∧ k.Ok ∧ k.TimeOk) (cl : Conn Client) (_ : cl.st.nextConf < 20)
    (t : Server) (_ : t.connected = true) (_ : Server.QueueLines t) (chunks : List Bytes)
    (_ : chunks.flatten = (writesOf (runOps (π := Nat) (fun _ => pure ()) now (.made :: calls.map .call) cl).2).flatten),
    ∃ o t', feed maxBufferSize (Server.handle rand) chunks ⟨[], t⟩ = (⟨[], t'⟩, o, .ok ()) ∧
      sEventsOf o = [.reset, .reset, .reset] ++ sessionEvents now cl.st.clockReads calls

/-- A piece that does not fit raises, whatever the handler is. -/
theorem fits_of_feed {σ ω : Type} (limit : Nat) (handle : Bytes → Proc σ ω Int) : ∀ (chunks : List Bytes) (c c' : Conn σ) (o : List ω),
    feed limit handle chunks c = (c', o, .ok ()) → Fits limit handle chunks c
  | [], _, _, _, _ => trivial
  | d :: ds, c, c', o, h => by
    have h0 := C39_overflow limit handle d c
    have hle : c.buf.length + d.length ≤ limit := by
      refine Nat.le_of_not_lt fun hlt => ?_
      by_cases hd : limit < d.length
      · simp only [feed, Proc.andThen, h0.1 hd] at h
        cases h
      · simp only [feed, Proc.andThen, h0.2.1 (by omega) hlt] at h
        cases h
    refine ⟨hle, fun c1 o1 h1 => ?_⟩
    simp only [feed, Proc.andThen, h1] at h
    generalize hz : feed limit handle ds c1 = z at h
    obtain ⟨c2, o2, r⟩ := z
    simp only [Prod.mk.injEq] at h
    obtain ⟨rfl, -, rfl⟩ := h
    exact fits_of_feed limit handle ds c1 _ _ hz

/-- Commands are carried out, all of them, exactly if there is always room for the next piece. -/
theorem C156_exactly (rand : Nat → Int) (hr : Server.RandOk rand) (now : Nat → PyDateTime) (hnow : ∀ n, DateTimeOk (now n))
    (hook : Event → Proc Client (Eff π) Unit) (calls : List ClientCall)
    (hall : ∀ k ∈ calls, IsBroadcast k ∧ k.Ok ∧ k.TimeOk) (cl : Conn Client) (hk : cl.st.nextConf < 20)
    (t : Server) (hc : t.connected = true) (hq : Server.QueueLines t) (chunks : List Bytes)
    (hch : chunks.flatten = (writesOf (runOps hook now (.made :: calls.map .call) cl).2).flatten) :
    (∃ c o, feed maxBufferSize (Server.handle rand) chunks ⟨[], t⟩ = (c, o, .ok ())) ↔
      Fits maxBufferSize (Server.handle rand) chunks ⟨[], t⟩ := by
  constructor
  · rintro ⟨c, o, h⟩
    exact fits_of_feed _ _ _ _ _ _ h
  · intro h
    obtain ⟨o, t', h1, -⟩ := C55_delivered rand hr now hnow hook calls hall cl hk t hc hq chunks hch h
    exact ⟨_, _, h1⟩

/-- What is longer than 256 characters and arrives in one piece closes the connection, and nothing of it is carried out,
whatever was there before. -/
theorem C156_burst (rand : Nat → Int) (d : Bytes) (c : Conn Server) (h : 256 < d.length) :
    Server.receive rand d c = (.closed, []) := by
  have h1 : Server.dataReceived rand d c = (c, [], .error .valueError) :=
    (C39_overflow maxBufferSize (Server.handle rand) d c).1 h
  unfold Server.receive
  rw [h1]

/-- All at once if it is not more than 256 characters.

What is missing: longer pieces, see `C156_burst`; for pieces of up to 209 characters C55 is true of any number of commands. -/
theorem C156_partial (rand : Nat → Int) (hr : Server.RandOk rand) (now : Nat → PyDateTime) (hnow : ∀ n, DateTimeOk (now n))
    (hook : Event → Proc Client (Eff π) Unit) (calls : List ClientCall)
    (hall : ∀ k ∈ calls, IsBroadcast k ∧ k.Ok ∧ k.TimeOk) (cl : Conn Client) (hk : cl.st.nextConf < 20)
    (t : Server) (hc : t.connected = true) (hq : Server.QueueLines t) (all : Bytes)
    (hch : all = (writesOf (runOps hook now (.made :: calls.map .call) cl).2).flatten) (hl : all.length ≤ 256) :
    ∃ o t', Server.receive rand all ⟨[], t⟩ = (.isOpen ⟨[], t'⟩, o) ∧
      sEventsOf o = [.reset, .reset, .reset] ++ sessionEvents now cl.st.clockReads calls ∧
      confirmationsOf o = (cycleFrom cl.st.nextConf (3 + calls.length)).map confirmationFor := by
  have hf : Fits maxBufferSize (Server.handle rand) [all] ⟨[], t⟩ := ⟨by simpa [maxBufferSize] using hl, fun _ _ _ => trivial⟩
  obtain ⟨o, t', h1, -, -, -, h5, h6⟩ := C55_delivered rand hr now hnow hook calls hall cl hk t hc hq [all] (by simpa using hch) hf
  have h2 : Server.dataReceived rand all ⟨[], t⟩ = (⟨[], t'⟩, o, .ok ()) := by
    simp only [feed, Proc.andThen] at h1
    show dataReceived maxBufferSize (Server.handle rand) all ⟨[], t⟩ = _
    generalize dataReceived maxBufferSize (Server.handle rand) all ⟨[], t⟩ = z at h1
    obtain ⟨c, o1, r⟩ := z
    cases r with
    | error e => simp at h1
    | ok u => simpa [pure, feed] using h1
  unfold Server.receive
  rw [h2]
  exact ⟨o, t', rfl, h5, h6⟩

/-- Fifteen lamps that are switched on. -/
def fifteenLamps : List ClientCall := List.replicate 15 (.on [1])

theorem C156_false : ¬ C156_claim := by
  intro h
  obtain ⟨o, t', h1, -⟩ := h (fun _ => 1) (fun _ => (by decide : (1 : Int) ≤ 1 ∧ (1 : Int) ≤ 100)) (fun _ => someTime) (fun _ => someTime_ok) fifteenLamps
    (fun k hk => by
      rw [(List.mem_replicate.1 hk).2]
      refine ⟨trivial, by decide, ?_⟩
      first | trivial | decide)
    ⟨[], {}⟩ (by decide) { connected := true } rfl (fun w hw => by cases hw) [_] (List.append_nil _)
  have h2 := fits_of_feed _ _ _ _ _ _ h1
  exact absurd h2.1 (by decide +kernel)

/-- What they write is 261 characters. In one piece it is lost with the connection; in two pieces all the lamps are switched
on; and so are fourteen lamps in one piece. -/
example :
    let w (n : Nat) := (writesOf (runOps (π := Nat) (fun _ => pure ()) (fun _ => someTime)
      (.made :: (fifteenLamps.take n).map .call) ⟨[], {}⟩).2).flatten
    let events (ds : List Bytes) := (sEventsOf (feed maxBufferSize (Server.handle fun _ => 1) ds ⟨[], { connected := true }⟩).2.1).drop 3
    (w 15).length = 261 ∧ (w 14).length = 246 ∧ events [w 15] = [] ∧
    events [(w 15).take 200, (w 15).drop 200] = List.replicate 15 (.lightingOn 1) ∧
    events [w 14] = List.replicate 14 (.lightingOn 1) := by decide +kernel

end CBus.Props
