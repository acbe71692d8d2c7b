import Verif.Spec.Life

/-! # What has to come before what is shown of a light -/

namespace CBus.Spec
open CBus

/-- A configuration, left at the broker, that says that the state is shown on `topic`. -/
def Foretells (topic : Str) (m : MqttEff) : Prop :=
  ∃ t v q, m = .publish t (.json (.obj v)) q true ∧ "/config".toList <:+ t ∧ dictGet v "stat_t".toList = some (.str topic)

/-- A subscription to `topic`. -/
def ListensTo (topic : Str) (m : MqttEff) : Prop := ∃ l q, m = .subscribe l ∧ (topic, q) ∈ l

/-- Messages arrive only from a broker to which there has been a connection; `b` says whether there was one before. -/
inductive OnlyAccepted : Bool → List DaemonStep → Prop
  | nil (b : Bool) : OnlyAccepted b []
  | broker (b : Bool) (labels : List (Int × Str)) (xs : List DaemonStep) (h : OnlyAccepted true xs) :
      OnlyAccepted b (.broker labels :: xs)
  | message (topic : Str) (payload : Bytes) (xs : List DaemonStep) (h : OnlyAccepted true xs) :
      OnlyAccepted true (.message topic payload :: xs)
  | other (b : Bool) (x : DaemonStep) (xs : List DaemonStep) (hb : ∀ labels, x ≠ .broker labels)
      (hm : ∀ topic payload, x ≠ .message topic payload) (h : OnlyAccepted b xs) : OnlyAccepted b (x :: xs)

end CBus.Spec
