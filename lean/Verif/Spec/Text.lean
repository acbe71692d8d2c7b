import Verif.Model.Text

/-! # Text, stated independently of Python's functions -/

namespace CBus.Spec
open CBus

/-- `t` is `s` without the white space around it. -/
def Stripped (isSpace : Char → Bool) (s t : Str) : Prop :=
  (∃ l r, s = l ++ t ++ r ∧ (∀ c ∈ l, isSpace c = true) ∧ (∀ c ∈ r, isSpace c = true)) ∧
  (∀ c, t.head? = some c → isSpace c = false) ∧ (∀ c, t.getLast? = some c → isSpace c = false)

end CBus.Spec
