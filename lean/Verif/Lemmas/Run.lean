import Verif.Lemmas.Buffer

/-! # Streams of complete messages -/

namespace CBus
open CBus.Spec
variable {σ ω : Type}

/-- From state `s`, the bytes `b` are a sequence of messages of at most `M` bytes
each, which `handle` recognises whatever follows them; handling them all has the
effects `o` and leads to `s'`. -/
inductive Run (handle : Bytes → Proc σ ω Int) (G : Bytes → σ → Prop) (M : Nat) : σ → Bytes → List ω → σ → Prop
  | nil (s : σ) : Run handle G M s [] [] s
  | cons {l b : Bytes} {s s1 s2 : σ} {o1 o2 : List ω} : l ≠ [] → l.length ≤ M → (∀ rest, G (l ++ rest) s) →
      (∀ rest, handle (l ++ rest) s = (s1, o1, .ok (l.length : Int))) → Run handle G M s1 b o2 s2 →
      Run handle G M s (l ++ b) (o1 ++ o2) s2

namespace Run
variable {handle : Bytes → Proc σ ω Int} {G : Bytes → σ → Prop} {M : Nat}

theorem append {s s1 s2 : σ} {b1 b2 : Bytes} {o1 o2 : List ω} (h1 : Run handle G M s b1 o1 s1)
    (h2 : Run handle G M s1 b2 o2 s2) : Run handle G M s (b1 ++ b2) (o1 ++ o2) s2 := by
  induction h1 with
  | nil => exact h2
  | cons a b c d _ ih =>
    rw [List.append_assoc, List.append_assoc]
    exact .cons a b c d (ih h2)

theorem one {l : Bytes} {s s1 : σ} {o : List ω} (hl : l ≠ []) (hM : l.length ≤ M) (hG : ∀ rest, G (l ++ rest) s)
    (h : ∀ rest, handle (l ++ rest) s = (s1, o, .ok (l.length : Int))) : Run handle G M s l o s1 := by
  have := Run.cons hl hM hG h (.nil s1)
  simpa using this

/-- Processing any initial part of the stream handles the complete messages in it
and leaves a part of the next one. -/
theorem prefix_ (hc : Chunkable handle G) (hM : 0 < M) {s s' : σ} {b : Bytes} {o : List ω} (h : Run handle G M s b o s') :
    ∀ x y, b = x ++ y → ∃ p s1 o1 o2, processBuffer handle x s = (⟨p, s1⟩, o1, .ok ()) ∧
      Run handle G M s1 (p ++ y) o2 s' ∧ o = o1 ++ o2 ∧ p.length < M ∧ (y = [] → p = []) := by
  induction h with
  | nil s =>
    intro x y hxy
    have hx : x = [] := (List.append_eq_nil_iff.1 hxy.symm).1
    have hy : y = [] := (List.append_eq_nil_iff.1 hxy.symm).2
    subst hx; subst hy
    exact ⟨[], s, [], [], processBuffer_nil handle s, .nil s, rfl, hM, fun _ => rfl⟩
  | @cons l b s s1 s2 o1 o2 h1 h2 h3 h4 h5 ih =>
    intro x y hxy
    by_cases hlen : l.length ≤ x.length
    · obtain ⟨x', rfl⟩ : ∃ x', x = l ++ x' := by
        have : l <+: x := by
          have a1 : l <+: x ++ y := ⟨b, hxy⟩
          exact List.prefix_of_prefix_length_le a1 (List.prefix_append x y) hlen
        obtain ⟨t, ht⟩ := this
        exact ⟨t, ht.symm⟩
      rw [List.append_assoc] at hxy
      have hb := List.append_cancel_left hxy
      obtain ⟨p, t1, oo1, oo2, g1, g2, g3, g4, g5⟩ := ih x' y hb
      have hpos : 0 < l.length := List.length_pos_iff.mpr h1
      refine ⟨p, t1, o1 ++ oo1, oo2, ?_, g2, by rw [g3, List.append_assoc], g4, g5⟩
      rw [processBuffer_step (by simp [h1]) (h4 x') (by omega)]
      simp [g1]
    · obtain ⟨l', rfl⟩ : ∃ l', l = x ++ l' := by
        have a1 : x <+: l ++ b := ⟨y, hxy.symm⟩
        obtain ⟨t, ht⟩ := List.prefix_of_prefix_length_le a1 (List.prefix_append l b) (by omega)
        exact ⟨t, ht.symm⟩
      have hwait : (handle x s).2.2 = .ok 0 := by
        by_cases hz : (handle x s).2.2 = .ok 0
        · exact hz
        · exfalso
          have e1 := hc.stable x l' s (by simpa using h3 []) hz
          have e2 := h4 []
          rw [List.append_nil] at e2
          rw [e2] at e1
          have e3 := hc.pos x l' s ((x ++ l').length : Int) (by simpa using h3 []) (by rw [← e1])
          omega
      have hw := hc.wait x s hwait
      refine ⟨x, s, [], o1 ++ o2, processBuffer_wait hw, ?_, rfl, by omega, ?_⟩
      · rw [← hxy]
        exact .cons h1 h2 h3 h4 h5
      · intro hy
        subst hy
        rw [List.append_nil] at hxy
        have := congrArg List.length hxy
        simp only [List.length_append] at this hlen
        omega

/-- However the stream is chopped, as long as the chunks fit. -/
theorem feed_from (hc : Chunkable handle G) (hM : 0 < M) (limit : Nat) {s' : σ} : ∀ (chunks : List Bytes) (p : Bytes) (s : σ)
    (o : List ω), Run handle G M s (p ++ chunks.flatten) o s' → (chunks.flatten = [] → p = []) →
    Fits limit handle chunks ⟨p, s⟩ → feed limit handle chunks ⟨p, s⟩ = (⟨[], s'⟩, o, .ok ()) := by
  intro chunks
  induction chunks with
  | nil =>
    intro p s o h hp _
    have hp := hp rfl
    subst hp
    simp only [List.flatten_nil, List.append_nil] at h
    generalize hb : ([] : Bytes) = b at h
    cases h with
    | nil => rfl
    | cons h1 =>
      exfalso
      exact h1 (List.append_eq_nil_iff.1 hb.symm).1
  | cons d ds ih =>
    intro p s o h hp hf
    obtain ⟨hf1, hf2⟩ := hf
    obtain ⟨p', s1, o1, o2, g1, g2, g3, -, g5⟩ := prefix_ hc hM h (p ++ d) ds.flatten (by simp)
    have hd : dataReceived limit handle d ⟨p, s⟩ = (⟨p', s1⟩, o1, .ok ()) := by
      unfold dataReceived
      simp only at hf1
      rw [if_neg (by omega), if_neg (by simp only; omega)]
      exact g1
    have hrec := ih p' s1 o2 g2 g5 (hf2 _ _ hd)
    simp only [feed, Proc.andThen, hd, hrec, g3]

theorem feed (hc : Chunkable handle G) (hM : 0 < M) (limit : Nat) {s s' : σ} (chunks : List Bytes) (o : List ω)
    (h : Run handle G M s chunks.flatten o s') (hf : Fits limit handle chunks ⟨[], s⟩) :
    Spec.feed limit handle chunks ⟨[], s⟩ = (⟨[], s'⟩, o, .ok ()) :=
  feed_from hc hM limit chunks [] s o (by simpa using h) (fun _ => rfl) hf

/-- Small chunks always fit. -/
theorem fits_from (hc : Chunkable handle G) (hM : 0 < M) (limit : Nat) (hlim : M ≤ limit) {s' : σ} :
    ∀ (chunks : List Bytes) (p : Bytes) (s : σ) (o : List ω), Run handle G M s (p ++ chunks.flatten) o s' →
    p.length < M → (∀ d ∈ chunks, d.length ≤ limit - M) → Fits limit handle chunks ⟨p, s⟩ := by
  intro chunks
  induction chunks with
  | nil => intro p s o _ _ _; exact trivial
  | cons d ds ih =>
    intro p s o h hp hsm
    have hd := hsm d (by simp)
    refine ⟨by simp only; omega, ?_⟩
    intro c' o' hr
    obtain ⟨p', s1, o1, o2, g1, g2, g3, g4, -⟩ := prefix_ hc hM h (p ++ d) ds.flatten (by simp)
    unfold dataReceived at hr
    rw [if_neg (by omega), if_neg (by simp only; omega)] at hr
    simp only [g1, Prod.mk.injEq] at hr
    rw [← hr.1]
    exact ih p' s1 o2 g2 g4 (fun d hd => hsm d (by simp [hd]))

theorem fits (hc : Chunkable handle G) (hM : 0 < M) (limit : Nat) (hlim : M ≤ limit) {s s' : σ} (chunks : List Bytes)
    (o : List ω) (h : Run handle G M s chunks.flatten o s') (hsm : ∀ d ∈ chunks, d.length ≤ limit - M) :
    Fits limit handle chunks ⟨[], s⟩ :=
  fits_from hc hM limit hlim chunks [] s o (by simpa using h) (by simpa using hM) hsm

end Run
end CBus
