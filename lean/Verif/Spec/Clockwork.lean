import Verif.Spec.Outlet

/-! # The time that units on the network are told -/

namespace CBus.Spec
open CBus

/-- Whole seconds, in the order of the calendar. -/
def stamp (t : PyDateTime) : Nat :=
  ((((t.date.year * 13 + t.date.month) * 32 + t.date.day) * 24 + t.time.hour) * 60 + t.time.minute) * 60 + t.time.second

/-- The times that lines to the PCI tell, one after the other. -/
inductive TimesTold : List Bytes → List PyDateTime → Prop
  | nil : TimesTold [] []
  | time (t : PyDateTime) (c : UInt8) (line : Bytes) (ls : List Bytes) (ts : List PyDateTime) (ht : DateTimeOk t)
      (h : ClockLine t c line) (hr : TimesTold ls ts) : TimesTold (line :: ls) (t :: ts)
  | other (line : Bytes) (ls : List Bytes) (ts : List PyDateTime) (h : ∀ t c, ¬ ClockLine t c line) (hr : TimesTold ls ts) :
      TimesTold (line :: ls) ts

end CBus.Spec
