import Verif.Props.Codec

/-! Helper lemmas on ramp codes. -/

namespace CBus
open Spec Props

theorem lightHandler_ramp (c : UInt8) (q : Int) (h : rampRateToDuration c.toNat = .ok q) :
    lightHandler c = some .ramp := by
  have : ∀ c : UInt8, (∃ q ∈ rampDurations, rampRateToDuration c.toNat = .ok q) →
      lightHandler c = some .ramp := by
    apply forall_byte; decide +kernel
  apply this c
  refine ⟨q, ?_, h⟩
  rcases C06_rate_table c.toNat with ⟨k, -, -, d, h1, h2, -⟩ | ⟨-, h2⟩
  · rw [h] at h2; injection h2 with h2; subst h2
    exact List.mem_of_getElem? h1
  · rw [h] at h2; cases h2

theorem rampRate_of_handler (c : UInt8) (h : lightHandler c = some .ramp) :
    ∃ q, rampRateToDuration c.toNat = .ok q := by
  have : ∀ c : UInt8, lightHandler c = some .ramp →
      ∃ q ∈ rampDurations, rampRateToDuration c.toNat = .ok q := by
    apply forall_byte; decide +kernel
  obtain ⟨q, -, hq⟩ := this c h
  exact ⟨q, hq⟩

end CBus
