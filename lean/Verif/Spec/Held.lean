import Verif.Model.Server

/-! # What the simulated PCI holds back -/

namespace CBus.Spec

/-- Whether something was sent with `_send`. -/
def isSend : SEff → Bool
  | .write _ => true
  | _ => false

/-- What happened after something was sent for the last time. -/
def sinceSent (o : List SEff) : List SEff := (o.reverse.takeWhile fun e => !isSend e).reverse

/-- Whether the clock was set. -/
def isClockUpdate : SEff → Bool
  | .event (.clockUpdate _) => true
  | _ => false

/-- The number of clock updates. -/
def clockUpdates (o : List SEff) : Nat := (o.filter isClockUpdate).length

end CBus.Spec
