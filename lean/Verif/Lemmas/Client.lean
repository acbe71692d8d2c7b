import Verif.Model.Client
import Verif.Lemmas.Buffer
import Verif.Props.RoundTrip
import Verif.Props.Buffer

/-! # Lemmas about the client -/

namespace CBus
open CBus.Spec CBus.Props

variable {π : Type}

theorem code_at {k : Nat} (h : k < 20) : ∃ c, confirmationCodes[k]? = some c ∧ c ∈ confirmationCodes := by
  have hl : k < confirmationCodes.length := h
  exact ⟨confirmationCodes[k], List.getElem?_eq_getElem hl, List.getElem_mem hl⟩

namespace Client

theorem send_special (p : Packet) (w : Bytes) (hp : isSpecial p = true) (hw : p.encodePacket = .ok w)
    (basic : Bool) (s : Client) (hc : s.connected = true) :
    send (π := π) p basic s = (s, [.write (w ++ [0x0d])], .ok none) := by
  simp [send, hc, hw, hp, endCommand]

theorem send_ok (p : Packet) (w : Bytes) (hp : isSpecial p = false) (hw : p.encodePacket = .ok w)
    (basic : Bool) (s : Client) (hc : s.connected = true) (c : UInt8)
    (hk : confirmationCodes[s.nextConf]? = some c) :
    send (π := π) p basic s = ({ s with nextConf := (s.nextConf + 1) % 20 },
      [.write ((if basic then w else 0x5c :: w) ++ [c, 0x0d])], .ok (some c)) := by
  have hl : confirmationCodes.length = 20 := rfl
  simp [send, hc, hw, hp, endCommand, Proc.andThen, getConfirmationCode, hk, hl]

theorem send_disconnected (p : Packet) (basic : Bool) (s : Client) (hc : s.connected = false) :
    send (π := π) p basic s = (s, [], .error .ioError) := by
  simp [send, hc]

theorem send_error (p : Packet) (e : PyErr) (hw : p.encodePacket = .error e) (basic : Bool) (s : Client)
    (hc : s.connected = true) :
    send (π := π) p basic s = (s, [], .error e) := by
  simp [send, hc, hw]

end Client

/-- The packets are handled one after the other until one raises. -/
def runPackets {σ ω : Type} (onPacket : Packet → Proc σ ω Unit) : List Packet → Proc σ ω Unit
  | [] => fun s => (s, [], .ok ())
  | p :: ps => Proc.andThen (onPacket p) fun _ => runPackets onPacket ps

/-- A line that decodes to a packet whatever follows it. -/
def LineFor (l : Bytes) (p : Packet) : Prop :=
  l ≠ [] ∧ ∀ rest, decodePacket (l ++ rest) true true true = .ok (some p, l.length)

/-- A client that receives complete lines handles their packets in order. -/
theorem Client.lines (hook : Event → Proc Client (Eff π) Unit) : ∀ (items : List (Bytes × Packet)) (rest : Bytes)
    (s s' : Client) (o : List (Eff π)), (∀ i ∈ items, LineFor i.1 i.2) →
    runPackets (Client.onPacket hook) (items.map (·.2)) s = (s', o, .ok ()) →
    processBuffer (Client.handle hook) ((items.map (·.1)).flatten ++ rest) s =
      ((processBuffer (Client.handle hook) rest s').1, o ++ (processBuffer (Client.handle hook) rest s').2.1,
       (processBuffer (Client.handle hook) rest s').2.2) := by
  intro items
  induction items with
  | nil =>
    intro rest s s' o _ hr
    simp only [List.map_nil, runPackets, Prod.mk.injEq] at hr
    obtain ⟨rfl, rfl, -⟩ := hr
    rfl
  | cons i items ih =>
    intro rest s s' o hl hr
    obtain ⟨h1, h2⟩ := hl i (by simp)
    simp only [List.map_cons, runPackets, Proc.andThen] at hr
    cases hp : Client.onPacket hook i.2 s with
    | mk s1 r1 =>
      obtain ⟨o1, r1⟩ := r1
      rw [hp] at hr
      cases r1 with
      | error e => simp at hr
      | ok u =>
        simp only [Prod.mk.injEq] at hr
        have hh : Client.handle hook (i.1 ++ ((items.map (·.1)).flatten ++ rest)) s = (s1, o1, .ok (i.1.length : Int)) := by
          unfold Client.handle handleData
          rw [show (!false) = true from rfl, h2]
          simp [Proc.andThen, pure, hp]
        have hpos : 0 < i.1.length := List.length_pos_iff.mpr h1
        simp only [List.map_cons, List.flatten_cons, List.append_assoc]
        rw [processBuffer_step (by simp [h1]) hh (by omega)]
        simp only [Int.toNat_natCast, List.drop_left]
        have := ih rest s1 s' _ (fun j hj => hl j (by simp [hj])) (Prod.ext hr.1 (Prod.ext rfl hr.2.2))
        rw [this, ← hr.2.1]
        simp

/-- The same for any chunks. -/
theorem Client.feed_lines (hook : Event → Proc Client (Eff π) Unit) (items : List (Bytes × Packet))
    (chunks : List Bytes) (s s' : Client) (o : List (Eff π)) (hl : ∀ i ∈ items, LineFor i.1 i.2)
    (hr : runPackets (Client.onPacket hook) (items.map (·.2)) s = (s', o, .ok ()))
    (hc : chunks.flatten = (items.map (·.1)).flatten)
    (hf : Fits maxBufferSize (Client.handle hook) chunks ⟨[], s⟩) :
    feed maxBufferSize (Client.handle hook) chunks ⟨[], s⟩ = (⟨[], s'⟩, o, .ok ()) := by
  obtain ⟨rest, h1, h2⟩ := feed_whole (handleData_chunkable _ _ _ false) maxBufferSize chunks ⟨[], s⟩
    (processBuffer_nil _ _) hf (by simp)
  have h3 := Client.lines hook items [] s s' o hl hr
  simp only [List.append_nil, processBuffer_nil] at h3
  simp only [List.nil_append] at h1
  change processBuffer (Client.handle hook) _ _ = _ at h1
  rw [hc, h3] at h1
  simp only [Prod.mk.injEq, Conn.mk.injEq] at h1
  have e2 := h1.2.2.symm
  have hrest := h2 e2
  rw [hrest, List.append_nil] at h1
  change feed maxBufferSize (handleData false (fun _ => true) (fun _ => pure ()) (Client.onPacket hook)) chunks
    ⟨[], s⟩ = _
  generalize feed maxBufferSize (handleData false (fun _ => true) (fun _ => pure ()) (Client.onPacket hook)) chunks
    ⟨[], s⟩ = r at *
  obtain ⟨⟨b, t⟩, o', r'⟩ := r
  simp only at h1
  simp [h1.1.1, h1.1.2, h1.2.1, h1.2.2]

end CBus
