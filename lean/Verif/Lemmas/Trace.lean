import Verif.Model.Buffered

/-! # Relations between the state before, the effects, and the state after

A relation that holds of doing nothing and of doing one thing after another holds
of a whole method if it holds of its parts. -/

namespace CBus
variable {σ ω α β : Type}

/-- A relation between states and traces that is closed under sequencing. -/
structure TraceRel (T : σ → List ω → σ → Prop) : Prop where
  nil : ∀ s, T s [] s
  append : ∀ {s1 t1 s2 t2 s3}, T s1 t1 s2 → T s2 t2 s3 → T s1 (t1 ++ t2) s3

/-- The relation holds of the method, whether it raises or not. -/
def Keeps (T : σ → List ω → σ → Prop) (m : Proc σ ω α) : Prop := ∀ s, T s (m s).2.1 (m s).1

namespace Keeps
variable {T : σ → List ω → σ → Prop}

theorem pure (hT : TraceRel T) (a : α) : Keeps T (pure a) := fun s => hT.nil s

theorem andThen (hT : TraceRel T) {m : Proc σ ω α} {f : α → Proc σ ω β} (hm : Keeps T m)
    (hf : ∀ a, Keeps T (f a)) : Keeps T (Proc.andThen m f) := by
  intro s
  have h1 := hm s
  unfold Proc.andThen
  generalize m s = r at h1 ⊢
  obtain ⟨s1, o1, r1⟩ := r
  cases r1 with
  | error e => exact h1
  | ok a => exact hT.append h1 (hf a s1)

theorem processBuffer (hT : TraceRel T) {handle : Bytes → Proc σ ω Int} (hh : ∀ b, Keeps T (handle b)) :
    ∀ (k : Nat) (b : Bytes) (s : σ), b.length ≤ k →
      T s (processBuffer handle b s).2.1 (processBuffer handle b s).1.st := by
  intro k
  induction k with
  | zero =>
    intro b s hk
    have : b = [] := List.eq_nil_of_length_eq_zero (by omega)
    subst this
    rw [CBus.processBuffer]
    exact hT.nil s
  | succ k ih =>
    intro b s hk
    rw [CBus.processBuffer]
    split
    · exact hT.nil s
    · rename_i hb
      have h1 := hh b s
      generalize handle b s = r at h1 ⊢
      obtain ⟨s1, o1, r1⟩ := r
      cases r1 with
      | error e => exact h1
      | ok r =>
        simp only
        split
        · exact h1
        · split
          · exact h1
          · split
            · rename_i hr
              have hl : 0 < b.length := List.length_pos_iff.mpr hb
              exact hT.append h1 (ih (b.drop r.toNat) s1 (by simp only [List.length_drop]; omega))
            · exact h1

theorem dataReceived (hT : TraceRel T) {handle : Bytes → Proc σ ω Int} (hh : ∀ b, Keeps T (handle b))
    (limit : Nat) (d : Bytes) (c : Conn σ) :
    T c.st (dataReceived limit handle d c).2.1 (dataReceived limit handle d c).1.st := by
  unfold CBus.dataReceived
  split
  · exact hT.nil _
  · split
    · exact hT.nil _
    · exact processBuffer hT hh _ _ _ (Nat.le_refl _)

theorem handleData (hT : TraceRel T) {emu : Bool} {checksum : σ → Bool} {echo : Bytes → Proc σ ω Unit}
    {onPacket : Packet → Proc σ ω Unit} (he : ∀ b, Keeps T (echo b)) (hp : ∀ p, Keeps T (onPacket p)) (b : Bytes) :
    Keeps T (handleData emu checksum echo onPacket b) := by
  intro s
  unfold CBus.handleData
  split
  · exact hT.nil s
  · rename_i p n _
    refine andThen hT ?_ (fun _ => andThen hT ?_ (fun _ => pure hT _)) s
    · split
      · exact he _
      · exact pure hT _
    · split
      · exact hp _
      · exact pure hT _

end Keeps
end CBus
