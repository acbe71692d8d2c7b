import Verif.Props.Decoder
import Verif.Model.Buffered
import Verif.Spec.Stream

/-! # Lemmas about the receive buffer -/

namespace CBus
open CBus.Spec

variable {σ ω : Type}

/-- What `handle_data` must satisfy for reception to be independent of how the
stream is chopped. `G` may exclude some situations. -/
structure Chunkable (handle : Bytes → Proc σ ω Int) (G : Bytes → σ → Prop) : Prop where
  wait : ∀ b s, (handle b s).2.2 = .ok 0 → handle b s = (s, [], .ok 0)
  stable : ∀ b more s, G (b ++ more) s → (handle b s).2.2 ≠ .ok 0 → handle (b ++ more) s = handle b s
  pos : ∀ b more s r, G (b ++ more) s → (handle b s).2.2 = .ok r → 0 ≤ r ∧ r ≤ b.length

theorem processBuffer_nil (handle : Bytes → Proc σ ω Int) (s : σ) :
    processBuffer handle [] s = (⟨[], s⟩, [], .ok ()) := by
  rw [processBuffer]; simp

theorem processBuffer_error {handle : Bytes → Proc σ ω Int} {b : Bytes} {s s1 : σ} {o e}
    (hb : b ≠ []) (h : handle b s = (s1, o, .error e)) :
    processBuffer handle b s = (⟨b, s1⟩, o, .error e) := by
  rw [processBuffer, dif_neg hb, h]

theorem processBuffer_wait {handle : Bytes → Proc σ ω Int} {b : Bytes} {s : σ}
    (h : handle b s = (s, [], .ok 0)) :
    processBuffer handle b s = (⟨b, s⟩, [], .ok ()) := by
  rw [processBuffer]
  split
  · rfl
  · rw [h]; simp

theorem processBuffer_step {handle : Bytes → Proc σ ω Int} {b : Bytes} {s s1 : σ} {o} {r : Int}
    (hb : b ≠ []) (h : handle b s = (s1, o, .ok r)) (hr : 0 < r) :
    processBuffer handle b s =
      ((processBuffer handle (b.drop r.toNat) s1).1,
       o ++ (processBuffer handle (b.drop r.toNat) s1).2.1,
       (processBuffer handle (b.drop r.toNat) s1).2.2) := by
  rw [processBuffer, dif_neg hb, h]
  simp only
  rw [if_neg (by omega), if_neg (by omega), dif_pos hr]

/-- Bytes that arrive later are processed after those already there. -/
theorem processBuffer_append {handle : Bytes → Proc σ ω Int} {G : Bytes → σ → Prop}
    (hc : Chunkable handle G) : ∀ (k : Nat) (a b : Bytes) (s : σ), a.length ≤ k →
    (∀ b' s', Reach handle (a ++ b) s b' s' → G b' s') →
    (∀ c o e, processBuffer handle a s = (c, o, .error e) →
      processBuffer handle (a ++ b) s = (⟨c.buf ++ b, c.st⟩, o, .error e)) ∧
    (∀ c o, processBuffer handle a s = (c, o, .ok ()) →
      Reach handle (a ++ b) s (c.buf ++ b) c.st ∧
      processBuffer handle c.buf c.st = (c, [], .ok ()) ∧
      processBuffer handle (a ++ b) s =
        ((processBuffer handle (c.buf ++ b) c.st).1,
         o ++ (processBuffer handle (c.buf ++ b) c.st).2.1,
         (processBuffer handle (c.buf ++ b) c.st).2.2)) := by
  intro k
  induction k with
  | zero =>
    intro a b s hk hg
    have ha : a = [] := List.eq_nil_of_length_eq_zero (by omega)
    subst ha
    rw [processBuffer_nil]
    refine ⟨(by intro c o e h; simp at h), ?_⟩
    intro c o h
    simp only [Prod.mk.injEq, and_true] at h
    obtain ⟨rfl, rfl⟩ := h
    exact ⟨.refl _ _, processBuffer_nil _ _, by simp⟩
  | succ k ih =>
    intro a b s hk hg
    by_cases ha : a = []
    · exact ih a b s (by simp [ha]) hg
    · have hab : a ++ b ≠ [] := by simp [ha]
      have hG := hg _ _ (.refl _ _)
      rcases hh : handle a s with ⟨s1, o1, r⟩
      cases r with
      | error e =>
        have h2 := hc.stable a b s hG (by rw [hh]; simp)
        rw [processBuffer_error ha hh, processBuffer_error hab (h2.trans hh)]
        refine ⟨?_, by intro c o h; simp at h⟩
        intro c o e' h
        simp only [Prod.mk.injEq, Except.error.injEq] at h
        obtain ⟨rfl, rfl, rfl⟩ := h
        rfl
      | ok r =>
        by_cases h0 : r = 0
        · subst h0
          have hw := hc.wait a s (by rw [hh])
          rw [processBuffer_wait hw]
          refine ⟨(by intro c o e h; simp at h), ?_⟩
          intro c o h
          simp only [Prod.mk.injEq, and_true] at h
          obtain ⟨rfl, rfl⟩ := h
          exact ⟨.refl _ _, processBuffer_wait hw, by simp⟩
        · have h2 := hc.stable a b s hG (by rw [hh]; simpa using h0)
          obtain ⟨hp1, hp2⟩ := hc.pos a b s r hG (by rw [hh])
          have hr : 0 < r := by omega
          have hd : (a ++ b).drop r.toNat = a.drop r.toNat ++ b := by
            rw [List.drop_append_of_le_length (by omega)]
          have hstep := Reach.step (h2.trans hh) hr hab
          rw [hd] at hstep
          have hi := ih (a.drop r.toNat) b s1 (by
            have := List.length_pos_iff.mpr ha
            simp only [List.length_drop]; omega)
            (fun b' s' h => hg b' s' (hstep.trans h))
          rw [processBuffer_step ha hh hr, processBuffer_step hab (h2.trans hh) hr, hd]
          refine ⟨?_, ?_⟩
          · intro c o e h
            simp only [Prod.mk.injEq] at h
            obtain ⟨h3, h4, h5⟩ := h
            have := hi.1 c _ e (by rw [← h3, ← h5])
            rw [this, ← h4]
          · intro c o h
            simp only [Prod.mk.injEq] at h
            obtain ⟨h3, h4, h5⟩ := h
            obtain ⟨g1, g2, g3⟩ := hi.2 c _ (by rw [← h3, ← h5])
            refine ⟨hstep.trans g1, g2, ?_⟩
            rw [g3, ← h4]
            simp [List.append_assoc]

/-- Chopped delivery against processing everything at once. -/
theorem feed_whole {handle : Bytes → Proc σ ω Int} {G : Bytes → σ → Prop} (hc : Chunkable handle G)
    (limit : Nat) : ∀ (chunks : List Bytes) (c : Conn σ),
    processBuffer handle c.buf c.st = (c, [], .ok ()) →
    Fits limit handle chunks c →
    (∀ b' s', Reach handle (c.buf ++ chunks.flatten) c.st b' s' → G b' s') →
    ∃ rest, processBuffer handle (c.buf ++ chunks.flatten) c.st =
      (⟨(feed limit handle chunks c).1.buf ++ rest, (feed limit handle chunks c).1.st⟩,
       (feed limit handle chunks c).2.1, (feed limit handle chunks c).2.2) ∧
      ((feed limit handle chunks c).2.2 = .ok () → rest = []) := by
  intro chunks
  induction chunks with
  | nil =>
    intro c hidle _ _
    refine ⟨[], ?_, fun _ => rfl⟩
    simp only [List.flatten_nil, List.append_nil]
    exact hidle
  | cons d ds ih =>
    intro c hidle hfit hg
    obtain ⟨hlen, hfit⟩ := hfit
    have hrec : dataReceived limit handle d c = processBuffer handle (c.buf ++ d) c.st := by
      unfold dataReceived
      rw [if_neg (by omega), if_neg (by omega)]
    have happ := processBuffer_append hc _ (c.buf ++ d) ds.flatten c.st (Nat.le_refl _)
      (by simpa [List.append_assoc] using hg)
    rcases hp : processBuffer handle (c.buf ++ d) c.st with ⟨c1, o1, r⟩
    cases r with
    | error e =>
      have hf : feed limit handle (d :: ds) c = (c1, o1, .error e) := by
        simp only [feed, Proc.andThen, hrec, hp]
      rw [hf]
      refine ⟨ds.flatten, ?_, by simp⟩
      simpa [List.append_assoc] using happ.1 c1 o1 e hp
    | ok u =>
      cases u
      obtain ⟨g1, g2, g3⟩ := happ.2 c1 o1 hp
      obtain ⟨rest, h1, h2⟩ := ih c1 g2 (hfit c1 o1 (hrec.trans hp)) (fun b' s' h => hg b' s' (by
        have := g1.trans h
        simpa [List.append_assoc] using this))
      have hf : feed limit handle (d :: ds) c = ((feed limit handle ds c1).1,
          o1 ++ (feed limit handle ds c1).2.1, (feed limit handle ds c1).2.2) := by
        simp only [feed, Proc.andThen, hrec, hp]
      rw [hf]
      refine ⟨rest, ?_, h2⟩
      simp only [List.flatten_cons]
      rw [← List.append_assoc, g3, h1]

end CBus
