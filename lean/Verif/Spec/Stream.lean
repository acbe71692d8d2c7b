import Verif.Model.Buffered

/-! # Deliveries of a byte stream -/

namespace CBus.Spec
open CBus

variable {σ ω : Type}

/-- The chunks are received one after the other until one raises. -/
def feed (limit : Nat) (handle : Bytes → Proc σ ω Int) : List Bytes → Proc (Conn σ) ω Unit
  | [] => fun c => (c, [], .ok ())
  | d :: ds => Proc.andThen (dataReceived limit handle d) (fun _ => feed limit handle ds)

/-- None of the chunks makes the buffer exceed the limit. -/
def Fits (limit : Nat) (handle : Bytes → Proc σ ω Int) : List Bytes → Conn σ → Prop
  | [], _ => True
  | d :: ds, c => c.buf.length + d.length ≤ limit ∧
      ∀ c' o, dataReceived limit handle d c = (c', o, .ok ()) → Fits limit handle ds c'

/-- The situations (buffer contents, state) in which `handle_data` is called when
a buffer is processed. -/
inductive Reach (handle : Bytes → Proc σ ω Int) : Bytes → σ → Bytes → σ → Prop
  | refl (b : Bytes) (s : σ) : Reach handle b s b s
  | head {b : Bytes} {s s1 : σ} {o : List ω} {r : Int} {b' : Bytes} {s' : σ} :
      handle b s = (s1, o, .ok r) → 0 < r → b ≠ [] → Reach handle (b.drop r.toNat) s1 b' s' →
      Reach handle b s b' s'

theorem Reach.step {handle : Bytes → Proc σ ω Int} {b : Bytes} {s s1 : σ} {o : List ω} {r : Int}
    (h : handle b s = (s1, o, .ok r)) (hr : 0 < r) (hb : b ≠ []) :
    Reach handle b s (b.drop r.toNat) s1 := .head h hr hb (.refl _ _)

theorem Reach.trans {handle : Bytes → Proc σ ω Int} {b b1 b2 : Bytes} {s s1 s2 : σ}
    (h1 : Reach handle b s b1 s1) (h2 : Reach handle b1 s1 b2 s2) : Reach handle b s b2 s2 := by
  induction h1 with
  | refl => exact h2
  | head h hr hb _ ih => exact .head h hr hb (ih h2)

end CBus.Spec
