import Verif.Model.LogData
import Verif.Spec.Log
import Verif.Spec.Stream
import Verif.Props.Repr

/-! # C161: what the log tells of the bytes that pass -/

namespace CBus.Props
open CBus CBus.Spec CBus.Repr
variable {σ ω π α : Type}

theorem linesOf_append (a b : List (ω ⊕ Str)) : linesOf (a ++ b) = linesOf a ++ linesOf b := by
  induction a with
  | nil => rfl
  | cons x a ih => cases x <;> simp [linesOf, ih]

theorem unlogged_append (a b : List (ω ⊕ Str)) : unlogged (a ++ b) = unlogged a ++ unlogged b := by
  induction a with
  | nil => rfl
  | cons x a ih => cases x <;> simp [unlogged, ih]

theorem linesOf_quiet (o : List ω) : linesOf (o.map (Sum.inl (β := Str))) = [] := by
  induction o with
  | nil => rfl
  | cons x o ih => exact ih

theorem unlogged_quiet (o : List ω) : unlogged (o.map (Sum.inl (β := Str))) = o := by
  induction o with
  | nil => rfl
  | cons x o ih => exact congrArg (x :: ·) ih

theorem handle_eq (h : Bytes → Proc σ ω Int) (b : Bytes) (s : σ) :
    Log.handle h b s = ((h b s).1, .inr (Log.incoming b) :: (h b s).2.1.map .inl, (h b s).2.2) := rfl

theorem processBuffer_unlogged (h : Bytes → Proc σ ω Int) (b : Bytes) (s : σ) :
    (processBuffer (Log.handle h) b s).1 = (processBuffer h b s).1 ∧
    unlogged (processBuffer (Log.handle h) b s).2.1 = (processBuffer h b s).2.1 ∧
    (processBuffer (Log.handle h) b s).2.2 = (processBuffer h b s).2.2 := by
  induction hn : b.length using Nat.strongRecOn generalizing b s with
  | _ n ih =>
    rw [processBuffer.eq_1 (Log.handle h), processBuffer.eq_1 h]
    by_cases hb : b = []
    · simp [hb, unlogged]
    · rw [dif_neg hb, dif_neg hb, handle_eq]
      rcases hr : h b s with ⟨s1, o1, x | r⟩
      · simp [unlogged, unlogged_quiet]
      · simp only
        by_cases h1 : r < -1
        · simp [h1, unlogged, unlogged_quiet]
        · by_cases h2 : r = -1
          · simp [h2, unlogged, unlogged_quiet]
          · by_cases h3 : 0 < r
            · have hl : 0 < b.length := List.length_pos_iff.mpr hb
              obtain ⟨i1, i2, i3⟩ := ih (b.drop r.toNat).length (by simp only [List.length_drop]; omega) (b.drop r.toNat) s1 rfl
              simp only [h1, h2, h3, if_false, dif_pos]
              refine ⟨i1, ?_, i3⟩
              rw [List.cons_append]
              show unlogged (List.map Sum.inl o1 ++ _) = _
              rw [unlogged_append, unlogged_quiet, i2]
            · simp [h1, h2, h3, unlogged, unlogged_quiet]

/-- C161: logging changes nothing: but for the lines, all is as without it. -/
theorem C161_unchanged (limit : Nat) (h : Bytes → Proc σ ω Int) (d : Bytes) (c : Conn σ) :
    (dataReceived limit (Log.handle h) d c).1 = (dataReceived limit h d c).1 ∧
    unlogged (dataReceived limit (Log.handle h) d c).2.1 = (dataReceived limit h d c).2.1 ∧
    (dataReceived limit (Log.handle h) d c).2.2 = (dataReceived limit h d c).2.2 := by
  unfold dataReceived
  split
  · exact ⟨rfl, rfl, rfl⟩
  · split
    · exact ⟨rfl, rfl, rfl⟩
    · exact processBuffer_unlogged h _ _

/-- A piece that is taken is told of at once. -/
theorem received_first (limit : Nat) (h : Bytes → Proc σ ω Int) (d : Bytes) (c : Conn σ) (hd : d ≠ [])
    (ho : (dataReceived limit (Log.handle h) d c).2.2 = .ok ()) :
    ∃ t, linesOf (dataReceived limit (Log.handle h) d c).2.1 = Log.incoming (c.buf ++ d) :: t := by
  unfold dataReceived at ho ⊢
  by_cases h1 : d.length > limit
  · rw [if_pos h1] at ho; cases ho
  · rw [if_neg h1] at ho ⊢
    by_cases h2 : c.buf.length + d.length > limit
    · rw [if_pos h2] at ho; cases ho
    · rw [if_neg h2] at ho ⊢
      rw [processBuffer, dif_neg (by simp [hd]), handle_eq]
      rcases h (c.buf ++ d) c.st with ⟨s1, o1, x | r⟩
      · exact ⟨_, rfl⟩
      · simp only
        split
        · exact ⟨_, rfl⟩
        · split
          · exact ⟨_, rfl⟩
          · split
            · exact ⟨_, rfl⟩
            · exact ⟨_, rfl⟩

theorem incoming_inj {a b : Bytes} (h : Log.incoming a = Log.incoming b) : a = b := by
  have h1 : bytes a ++ [] = bytes b ++ [] := by
    rw [List.append_nil, List.append_nil]
    exact List.append_cancel_left h
  exact (reads_bytes _ _ _ _ h1).1

theorem feed_cons {limit : Nat} {h : Bytes → Proc σ ω Int} {d : Bytes} {ds : List Bytes} {c : Conn σ}
    (ho : (Spec.feed limit h (d :: ds) c).2.2 = .ok ()) :
    (dataReceived limit h d c).2.2 = .ok () ∧
    Spec.feed limit h (d :: ds) c = ((Spec.feed limit h ds (dataReceived limit h d c).1).1,
      (dataReceived limit h d c).2.1 ++ (Spec.feed limit h ds (dataReceived limit h d c).1).2.1,
      (Spec.feed limit h ds (dataReceived limit h d c).1).2.2) := by
  have he : Spec.feed limit h (d :: ds) c = Proc.andThen (dataReceived limit h d) (fun _ => Spec.feed limit h ds) c := rfl
  rw [he] at ho ⊢
  unfold Proc.andThen at ho ⊢
  rcases hr : dataReceived limit h d c with ⟨c1, o1, x | u⟩
  · rw [hr] at ho; cases ho
  · exact ⟨rfl, rfl⟩

/-- C161: as long as no exception ends the connection, the log tells each piece of data that was received: two
histories with the same lines are the same. -/
theorem C161_received_partial (limit : Nat) (h : Bytes → Proc σ ω Int) : ∀ (ds ds' : List Bytes) (c : Conn σ),
    (∀ d ∈ ds, d ≠ []) → (∀ d ∈ ds', d ≠ []) → (Spec.feed limit (Log.handle h) ds c).2.2 = .ok () →
    (Spec.feed limit (Log.handle h) ds' c).2.2 = .ok () →
    linesOf (Spec.feed limit (Log.handle h) ds c).2.1 = linesOf (Spec.feed limit (Log.handle h) ds' c).2.1 → ds = ds' := by
  intro ds
  induction ds with
  | nil =>
    intro ds' c _ hn' _ ho' hl
    cases ds' with
    | nil => rfl
    | cons d' ds' =>
      obtain ⟨k1, k2⟩ := feed_cons ho'
      obtain ⟨t, ht⟩ := received_first limit h d' c (hn' _ (by simp)) k1
      rw [k2, linesOf_append, ht] at hl
      cases hl
  | cons d ds ih =>
    intro ds' c hn hn' ho ho' hl
    obtain ⟨k1, k2⟩ := feed_cons ho
    obtain ⟨t, ht⟩ := received_first limit h d c (hn _ (by simp)) k1
    cases ds' with
    | nil =>
      rw [k2, linesOf_append, ht] at hl
      cases hl
    | cons d' ds' =>
      obtain ⟨k3, k4⟩ := feed_cons ho'
      obtain ⟨t', ht'⟩ := received_first limit h d' c (hn' _ (by simp)) k3
      have hd : d = d' := by
        rw [k2, k4, linesOf_append, linesOf_append, ht, ht'] at hl
        exact List.append_cancel_left (incoming_inj (List.cons.inj hl).1)
      subst hd
      rw [k2, k4, linesOf_append, linesOf_append] at hl
      rw [k2] at ho
      rw [k4] at ho'
      rw [ih ds' _ (fun x hx => hn x (by simp [hx])) (fun x hx => hn' x (by simp [hx])) ho ho' (List.append_cancel_left hl)]

/-! ## What is sent -/

/-- The bytes that are written, in order. -/
def writtenOf : List (Eff π) → List Bytes
  | [] => []
  | .write w :: rest => w :: writtenOf rest
  | _ :: rest => writtenOf rest

theorem packetHeads_noB : ∀ i : Fin 13, (packetHeads.getD i []).head? ≠ some 'b' ∧ packetHeads.getD i [] ≠ [] := by
  decide +kernel

theorem not_sendLine (e : Repr.Env) (p : Packet) : SendLine (lit "send: " ++ packet e p) = false := by
  obtain ⟨t, ht⟩ := packet_head e p
  obtain ⟨h1, h2⟩ := packetHeads_noB ⟨_, packetTag_lt p⟩
  rw [ht]
  have h3 : packetHead p = packetHeads.getD (packetTag p) [] := rfl
  rw [← h3] at h1 h2
  cases hh : packetHead p with
  | nil => exact absurd hh h2
  | cons c r =>
    rw [hh] at h1
    have h4 : c ≠ 'b' := fun h => h1 (by simp [h])
    have h5 : lit "send: " = ['s', 'e', 'n', 'd', ':', ' '] := by decide +kernel
    have h6 : "send: b".toList = ['s', 'e', 'n', 'd', ':', ' ', 'b'] := by decide +kernel
    simp only [SendLine, h5, h6, List.cons_append, List.nil_append, List.isPrefixOf_cons_cons, beq_self_eq_true, Bool.true_and]
    simp [Ne.symm h4]

theorem sendLine_bytes (w : Bytes) : SendLine (Log.sendBytes w) = true := by
  have h5 : lit "send: " = ['s', 'e', 'n', 'd', ':', ' '] := by decide +kernel
  have h6 : "send: b".toList = ['s', 'e', 'n', 'd', ':', ' ', 'b'] := by decide +kernel
  simp only [SendLine, Log.sendBytes, Repr.bytes, h5, h6]
  rfl

theorem getCode_quiet (s : Client) : (Client.getConfirmationCode (π := π) s).2.1 = [] := by
  unfold Client.getConfirmationCode
  split <;> rfl

/-- C161: what the client sends is told by the lines that begin with `send: b`, one for each time, and but for
the lines `_send` is as without logging. -/
theorem C161_sent (e : Repr.Env) (cmd : Packet) (basic : Bool) (s : Client) :
    let r := Log.clientSend (π := π) e cmd basic s
    (linesOf r.2.1).filter SendLine = (writtenOf (Client.send (π := π) cmd basic s).2.1).map Log.sendBytes ∧
    r.1 = (Client.send (π := π) cmd basic s).1 ∧ unlogged r.2.1 = (Client.send (π := π) cmd basic s).2.1 ∧
    r.2.2 = (Client.send (π := π) cmd basic s).2.2 := by
  have hn := not_sendLine e cmd
  simp only [Log.clientSend, Client.send]
  by_cases hc : s.connected = true
  · simp only [hc, if_true, Proc.andThen, Log.note, Proc.emit]
    cases hw : cmd.encodePacket with
    | error x => simp [linesOf, hn, writtenOf, unlogged]
    | ok w =>
      simp only
      by_cases hs : Client.isSpecial cmd = true
      · simp [hs, linesOf, hn, writtenOf, unlogged, sendLine_bytes]
      · simp only [hs, Bool.or_false, Log.quiet]
        have hg := getCode_quiet (π := π) s
        rcases hr : Client.getConfirmationCode (π := π) s with ⟨s1, o1, x | c⟩
        · rw [hr] at hg
          simp only at hg
          subst hg
          simp [linesOf, hn, writtenOf, unlogged]
        · rw [hr] at hg
          simp only at hg
          subst hg
          simp [linesOf, hn, writtenOf, unlogged, sendLine_bytes]
  · simp [hc, linesOf, writtenOf, unlogged]

/-- C161: a packet that is to be sent is told before it is made into bytes, so also when it cannot be; without a
connection nothing is told. -/
theorem C161_packet (e : Repr.Env) (cmd : Packet) (basic : Bool) (s : Client) :
    linesOf (Log.clientSend (π := π) e cmd basic s).2.1 =
      if s.connected then
        ("send: ".toList ++ packet e cmd) :: (writtenOf (Client.send (π := π) cmd basic s).2.1).map Log.sendBytes
      else [] := by
  have hl : ("send: ".toList : Str) = lit "send: " := by decide +kernel
  rw [hl]
  simp only [Log.clientSend, Client.send]
  by_cases hc : s.connected = true
  · simp only [hc, if_true, Proc.andThen, Log.note, Proc.emit]
    cases hw : cmd.encodePacket with
    | error x => simp [linesOf, writtenOf]
    | ok w =>
      simp only
      by_cases hs : Client.isSpecial cmd = true
      · simp [hs, linesOf, writtenOf]
      · simp only [hs, Bool.or_false, Log.quiet]
        have hg := getCode_quiet (π := π) s
        rcases hr : Client.getConfirmationCode (π := π) s with ⟨s1, o1, x | c⟩
        · rw [hr] at hg
          simp only at hg
          subst hg
          simp [linesOf, writtenOf]
        · rw [hr] at hg
          simp only at hg
          subst hg
          simp [linesOf, writtenOf]
  · simp [hc, linesOf]

/-- A line before each thing that is written. -/
def announced : List (Eff π) → List (Eff π ⊕ Str)
  | [] => []
  | .write w :: rest => .inr ("send: ".toList ++ bytes w) :: .inl (.write w) :: announced rest
  | x :: rest => .inl x :: announced rest

/-- C161: the lines come before what they tell of: that of received bytes before anything is done with them, that
of a packet first of all, and that of sent bytes right before they are written. -/
theorem C161_before (e : Repr.Env) (cmd : Packet) (basic : Bool) (s : Client) (h : Bytes → Proc σ ω Int) (b : Bytes) (t : σ) :
    (Log.clientSend (π := π) e cmd basic s).2.1 =
      (if s.connected then .inr ("send: ".toList ++ packet e cmd) :: announced (Client.send (π := π) cmd basic s).2.1 else []) ∧
    (Log.handle h b t).2.1 = .inr ("Incoming data: ".toList ++ bytes b) :: (h b t).2.1.map .inl := by
  have hl : ("send: ".toList : Str) = lit "send: " := by decide +kernel
  have hi : ("Incoming data: ".toList : Str) = lit "Incoming data: " := by decide +kernel
  refine ⟨?_, by rw [hi]; rfl⟩
  rw [hl]
  simp only [Log.clientSend, Client.send]
  by_cases hc : s.connected = true
  · simp only [hc, if_true, Proc.andThen, Log.note, Proc.emit]
    cases hw : cmd.encodePacket with
    | error x => simp [announced]
    | ok w =>
      simp only
      by_cases hs : Client.isSpecial cmd = true
      · simp [hs, announced, Log.sendBytes, hl]
      · simp only [hs, Bool.or_false, Log.quiet]
        have hg := getCode_quiet (π := π) s
        rcases hr : Client.getConfirmationCode (π := π) s with ⟨s1, o1, x | c⟩
        · rw [hr] at hg
          simp only at hg
          subst hg
          simp [announced]
        · rw [hr] at hg
          simp only at hg
          subst hg
          simp [announced, Log.sendBytes, hl]
  · simp [hc]

theorem C161_sent_inj {a b : Bytes} (h : Log.sendBytes a = Log.sendBytes b) : a = b := by
  have h1 : bytes a ++ [] = bytes b ++ [] := by
    rw [List.append_nil, List.append_nil]
    exact List.append_cancel_left h
  exact (reads_bytes _ _ _ _ h1).1

/-- C161: of what the simulated PCI sends, only the first packet is told: those that it held back follow
without a line. -/
theorem C161_server (cmd : Packet) (w : Bytes) (hw : Server.serialize cmd = .ok w) (s : Server) (hc : s.connected = true) :
    linesOf (Log.serverSend cmd s).2.1 = [Log.sendBytes w] ∧
    (Log.serverSend cmd s).2.1 = .inr ("send: ".toList ++ bytes w) :: .inl (.write w) :: s.queue.map (.inl ∘ .write) ∧
    unlogged (Log.serverSend cmd s).2.1 = .write w :: s.queue.map .write ∧
    (Log.serverSend cmd s).2.2 = .ok () ∧ (Log.serverSend cmd s).1 = (Server.send cmd s).1 := by
  simp only [Log.serverSend, hw, Proc.andThen, Log.note, Proc.emit, Log.quiet, Server.writeOut, hc, if_true, Server.send]
  refine ⟨?_, ?_, ?_, trivial, trivial⟩
  · rw [linesOf_append, linesOf_quiet]; rfl
  · have hl : ("send: ".toList : Str) = lit "send: " := by decide +kernel
    simp [Log.sendBytes, hl]
  · rw [unlogged_append, unlogged_quiet]; rfl

/-- C161, as one would expect it: the log tells all that was received and sent. -/
def C161_claim : Prop :=
  (∀ (ds ds' : List Bytes) (c : Conn Client), (∀ d ∈ ds ++ ds', d ≠ []) →
    linesOf (Spec.feed maxBufferSize (Log.handle (Client.handle fun _ => (pure () : Proc Client (Eff Empty) Unit))) ds c).2.1 =
      linesOf (Spec.feed maxBufferSize (Log.handle (Client.handle fun _ => (pure () : Proc Client (Eff Empty) Unit))) ds' c).2.1 → ds = ds') ∧
  ∀ (cmd : Packet) (s : Server), (linesOf (Log.serverSend cmd s).2.1).length =
    ((unlogged (Log.serverSend cmd s).2.1).filter fun x => match x with | .write _ => true | _ => false).length

/-- C161 is not so: a piece that is longer than the buffer is not told, and neither is what the simulated PCI held
back. -/
theorem C161_false : ¬C161_claim := by
  rintro ⟨-, h⟩
  have h1 := h .pciError { connected := true, queue := [[0x0d]] }
  revert h1
  decide +kernel

/-- C161 is not so for the client either. -/
theorem C161_too_long (h : Bytes → Proc σ ω Int) (d : Bytes) (hd : maxBufferSize < d.length) (c : Conn σ) :
    linesOf (Spec.feed maxBufferSize (Log.handle h) [d] c).2.1 = [] := by
  have he : Spec.feed maxBufferSize (Log.handle h) [d] c =
      Proc.andThen (dataReceived maxBufferSize (Log.handle h) d) (fun _ => Spec.feed maxBufferSize (Log.handle h) []) c := rfl
  rw [he]
  simp only [Proc.andThen, dataReceived, if_pos hd]
  rfl

/-- A message in two pieces, and a command. -/
example :
    linesOf (Spec.feed maxBufferSize (Log.handle (Client.handle fun _ => (pure () : Proc Client (Eff Empty) Unit)))
      [ascii "0503380079", ascii "0146\r\nh."] ⟨[], {}⟩).2.1 =
      ["Incoming data: b'0503380079'", "Incoming data: b'05033800790146\\r\\nh.'", "Incoming data: b'h.'"].map String.toList ∧
    linesOf (Log.clientSend (π := Empty) { address := fun _ => 0, float := fun _ => [], exception := fun _ => [] } .reset false { connected := true }).2.1 =
      ["send: ResetPacket()", "send: b'~\\r'"].map String.toList := by
  decide +kernel

end CBus.Props
