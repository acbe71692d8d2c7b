import Verif.Model.Packet

/-! What a reader of the text of a packet wants to know. -/

namespace CBus.Spec

/-- Two packets say the same to a reader: the same application, sender and commands; the
same unit, over bridges or not, and commands; the same parameter and value; the same code; the same bytes. -/
inductive SaysTheSame : Packet → Packet → Prop
  | powerOn : SaysTheSame .powerOn .powerOn
  | pciError : SaysTheSame .pciError .pciError
  | reset : SaysTheSame .reset .reset
  | smartConnect : SaysTheSame .smartConnect .smartConnect
  | confirmation (c : Bytes) (s : Bool) : SaysTheSame (.confirmation c s) (.confirmation c s)
  | invalid (d : Bytes) (x y : PyErr) : SaysTheSame (.invalid d x) (.invalid d y)
  | pm (p q : PM) (happ : p.app = q.app) (hsrc : p.src = q.src) (hsals : p.sals = q.sals) : SaysTheSame (.pm p) (.pm q)
  | pp (p q : PP) (hunit : p.unit = q.unit) (hbridged : p.bridged = q.bridged) (hcals : p.cals = q.cals) :
      SaysTheSame (.pp p) (.pp q)
  | dm (p q : DM) (hpar : p.parameter = q.parameter) (hval : p.value = q.value) : SaysTheSame (.dm p) (.dm q)
  | cal (c : CAL) : SaysTheSame (.cal c) (.cal c)

/-- A measured temperature, or a network variable. -/
def Untold : SAL → Prop
  | .temperature _ _ | .enableSet _ _ => True
  | _ => False

end CBus.Spec
