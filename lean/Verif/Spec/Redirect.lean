import Verif.Model.Redirect

/-! # What the serial redirector has to do -/

namespace CBus.Spec
open CBus

/-- The second text is the first with each `old` in it replaced by `new`, from the left. -/
inductive Replaced (old new : Bytes) : Bytes → Bytes → Prop
  | nil : Replaced old new [] []
  | hit {s t : Bytes} : Replaced old new s t → Replaced old new (old ++ s) (new ++ t)
  | keep {s t : Bytes} (x : UInt8) : ¬ old <+: x :: s → Replaced old new s t → Replaced old new (x :: s) (x :: t)

/-- The newlines that there are. -/
def IsNewline (b : Bytes) : Prop := b = [13] ∨ b = [10] ∨ b = [13, 10]

/-- The names of newlines. -/
inductive NewlineName : String → Bytes → Prop
  | cr : NewlineName "CR" [13]
  | lf : NewlineName "LF" [10]
  | crPlusLf : NewlineName "CR+LF" [13, 10]
  | crlf : NewlineName "CRLF" [13, 10]

/-- What the serial port yields, turn by turn. -/
def fromSerial : Redirect.Step → List Bytes
  | .serial first rest _ => [first ++ rest]
  | .network _ => []

/-- What the network yields, turn by turn. -/
def fromNetwork : Redirect.Step → List Bytes
  | .network (some d) => [d]
  | _ => []

/-- What is sent to the network. -/
def sentToNetwork : Redirect.Eff → Bytes
  | .toNetwork d => d
  | .toSerial _ => []

/-- What is sent to the serial port. -/
def sentToSerial : Redirect.Eff → Bytes
  | .toSerial d => d
  | .toNetwork _ => []

/-- Nothing goes wrong in this turn, and the network is not closed. -/
def Healthy : Redirect.Step → Prop
  | .serial _ _ sent => sent = true
  | .network d => ∃ x r, d = some (x :: r)

/-- No newline is cut in two between these pieces. -/
def NotCut (old : Bytes) : List Bytes → Prop
  | [] => True
  | p :: ps => (∀ a b, a ≠ [] → b ≠ [] → old = a ++ b → a <:+ p → ¬ b <+: ps.flatten) ∧ NotCut old ps

end CBus.Spec
