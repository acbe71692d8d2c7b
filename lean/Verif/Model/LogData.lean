import Verif.Model.Log

/-! # What is logged of the bytes that pass

The lines of `handle_data` before there is a packet (`Incoming data: `) and of `_send` (`send: `), among the effects
in the order in which they come. The other lines are in `Log`. -/

namespace CBus.Log

open CBus CBus.Repr
variable {σ ω π α : Type}

/-- A method that logs nothing, among methods that do. -/
def quiet (m : Proc σ ω α) : Proc σ (ω ⊕ Str) α := fun s => ((m s).1, (m s).2.1.map .inl, (m s).2.2)

/-- `logger.debug`. -/
def note (line : Str) : Proc σ (ω ⊕ Str) Unit := Proc.emit (.inr line)

/-- cbus_protocol.py:66. -/
def incoming (b : Bytes) : Str := lit "Incoming data: " ++ bytes b

/-- `handle_data` with its first line, cbus_protocol.py:54-79. -/
def handle (h : Bytes → Proc σ ω Int) (b : Bytes) : Proc σ (ω ⊕ Str) Int :=
  Proc.andThen (note (incoming b)) fun _ => quiet (h b)

/-- pciprotocol.py:341, 366; pciserverprotocol.py:361: the line for bytes that are sent. -/
def sendBytes (w : Bytes) : Str := lit "send: " ++ bytes w

/-- pciprotocol.py:328-369 `_send` with its lines. -/
def clientSend (e : Repr.Env) (cmd : Packet) (basicMode : Bool := false) :
    Proc Client (Eff π ⊕ Str) (Option UInt8) := fun s =>
  if s.connected then
    Proc.andThen (note (lit "send: " ++ packet e cmd)) (fun _ => fun s =>
      match cmd.encodePacket with
      | .error x => (s, [], .error x)
      | .ok w =>
        let w := if basicMode || Client.isSpecial cmd then w else 0x5c :: w
        if Client.isSpecial cmd then (s, [.inr (sendBytes (w ++ endCommand)), .inl (.write (w ++ endCommand))], .ok none)
        else
          Proc.andThen (quiet Client.getConfirmationCode) (fun c => fun s =>
            (s, [.inr (sendBytes (w ++ [c] ++ endCommand)), .inl (.write (w ++ [c] ++ endCommand))], .ok (some c))) s) s
  else (s, [], .error .ioError)

/-- pciserverprotocol.py:355-373 `_send` with its line. -/
def serverSend (cmd : Packet) : Proc Server (SEff ⊕ Str) Unit := fun s =>
  match Server.serialize cmd with
  | .error x => (s, [], .error x)
  | .ok w => Proc.andThen (note (sendBytes w)) (fun _ => quiet (Server.writeOut w)) s

end CBus.Log
