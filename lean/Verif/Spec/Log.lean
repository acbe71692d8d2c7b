import Verif.Model.Server
import Verif.Model.Text

/-! What a reader of a log relies on. -/

namespace CBus.Spec

/-- The lines that tell of something received. -/
def RecvLine (line : Str) : Bool := "recv: ".toList.isPrefixOf line

/-- The lines that tell of something that was not understood. -/
def UnhandledLine (line : Str) : Bool := "dce: unhandled".toList.isPrefixOf line

/-- The calls of event handlers among the effects of a simulated PCI. -/
def serverEvents : List SEff → List SEvent
  | [] => []
  | .event e :: rest => e :: serverEvents rest
  | _ :: rest => serverEvents rest

/-- `n` hundredths of a per cent, as `%.2f%%` writes them. -/
def Percentage (n : Nat) (t : Str) : Prop :=
  ∃ a b : Char, t = natStr (n / 100) ++ ['.', a, b, '%'] ∧ a.toNat = 48 + n / 10 % 10 ∧ b.toNat = 48 + n % 10

end CBus.Spec

namespace CBus.Spec

/-- The lines that are logged. -/
def linesOf {ω : Type} : List (ω ⊕ Str) → List Str
  | [] => []
  | .inl _ :: rest => linesOf rest
  | .inr l :: rest => l :: linesOf rest

/-- All that happens but for the lines that are logged. -/
def unlogged {ω : Type} : List (ω ⊕ Str) → List ω
  | [] => []
  | .inl x :: rest => x :: unlogged rest
  | .inr _ :: rest => unlogged rest

/-- The lines that tell of bytes that are sent. -/
def SendLine (line : Str) : Bool := "send: b".toList.isPrefixOf line

end CBus.Spec
