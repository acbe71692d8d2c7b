import Verif.Model.Decode

/-! # `buffered_protocol.py` and `cbus_protocol.py` -/

namespace CBus

/-- A method call: from the object's state to its state afterwards, the effects
it had, in order, and its result or exception. Effects before an exception are
kept. -/
def Proc (σ ω α : Type) := σ → σ × List ω × Py α

namespace Proc
variable {σ ω α β : Type}

/-- Sequencing; the second part is skipped if the first raises. -/
def andThen (m : Proc σ ω α) (f : α → Proc σ ω β) : Proc σ ω β := fun s =>
  match m s with
  | (s1, o1, .error e) => (s1, o1, .error e)
  | (s1, o1, .ok a) =>
    match f a s1 with
    | (s2, o2, r) => (s2, o1 ++ o2, r)

instance : Monad (Proc σ ω) where
  pure a := fun s => (s, [], .ok a)
  bind := andThen

/-- Emit one effect. -/
def emit (o : ω) : Proc σ ω Unit := fun s => (s, [o], .ok ())
/-- Change the state. -/
def modify (f : σ → σ) : Proc σ ω Unit := fun s => (f s, [], .ok ())
/-- Raise. -/
def raise (e : PyErr) : Proc σ ω α := fun s => (s, [], .error e)

end Proc

/-- A protocol object: its receive buffer (buffered_protocol.py:33) and the rest
of its state. -/
structure Conn (σ : Type) where
  buf : Bytes
  st : σ
  deriving DecidableEq, Repr

/-- buffered_protocol.py:88-110 `_process_buffer`, for an arbitrary
`handle_data` method. If the handler raises, the buffer is left as it is.
Python's `self._buf[r:]` for `r > 0` is `drop`. -/
def processBuffer {σ ω : Type} (handle : Bytes → Proc σ ω Int) (buf : Bytes) (s : σ) :
    Conn σ × List ω × Py Unit :=
  if _hb : buf = [] then (⟨buf, s⟩, [], .ok ())
  else
    match handle buf s with
    | (s1, o1, .error e) => (⟨buf, s1⟩, o1, .error e)
    | (s1, o1, .ok r) =>
      if r < -1 then (⟨[], s1⟩, o1, .error .valueError)
      else if r = -1 then (⟨[], s1⟩, o1, .ok ())
      else if _hr : 0 < r then
        match processBuffer handle (buf.drop r.toNat) s1 with
        | (c, o2, res) => (c, o1 ++ o2, res)
      else (⟨buf, s1⟩, o1, .ok ())
termination_by buf.length
decreasing_by
  have : 0 < buf.length := List.length_pos_iff.mpr _hb
  simp only [List.length_drop]; omega

/-- buffered_protocol.py:63-86 `data_received`. -/
def dataReceived {σ ω : Type} (limit : Nat) (handle : Bytes → Proc σ ω Int) (data : Bytes) :
    Proc (Conn σ) ω Unit := fun c =>
  if data.length > limit then (c, [], .error .valueError)
  else if c.buf.length + data.length > limit then ({ c with buf := [] }, [], .error .valueError)
  else processBuffer handle (c.buf ++ data) c.st

/-- cbus_protocol.py:54-79 `handle_data`, for given `self.checksum`, `echo` and
`handle_cbus_packet`. `strict` keeps its default `True`. -/
def handleData {σ ω : Type} (emulatePci : Bool) (checksum : σ → Bool)
    (echo : Bytes → Proc σ ω Unit) (onPacket : Packet → Proc σ ω Unit) (buf : Bytes) :
    Proc σ ω Int := fun s =>
  match decodePacket buf (checksum s) true (!emulatePci) with
  | .error e => (s, [], .error e)
  | .ok (p, n) =>
    Proc.andThen (if emulatePci ∧ 0 < n then echo (buf.take n) else pure ())
      (fun _ => Proc.andThen (match p with | some q => onPacket q | none => pure ())
        (fun _ => pure (n : Int))) s

end CBus
