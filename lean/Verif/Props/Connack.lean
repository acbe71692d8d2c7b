import Verif.Props.Discovery

/-! # C109: the broker's answer to a connection request -/

namespace CBus.Props
open CBus CBus.Spec

/-- C109 in full: an answer that refuses the connection has no effect, and one that
accepts it has the effect of C66. -/
def C109_claim : Prop :=
  ∀ (rc : Nat) (labels : List (Int × Str)) (s : Client),
    (rc ≠ 0 → Mqtt.onConnack rc labels s = (s, [], .ok ())) ∧
    (rc = 0 → (Mqtt.onConnack rc labels s).1.mqttApi = true ∧ ∀ ga ∈ groupAddresses, ∀ e ∈ configsOf labels ga,
      Eff.ext e ∈ (Mqtt.onConnack rc labels s).2.1)

/-- C109 is false: what the broker answers makes no difference, every answer is taken
for an accepted connection. -/
theorem C109_always (rc : Nat) (labels : List (Int × Str)) (s : Client) :
    Mqtt.onConnack rc labels s = ({ s with mqttApi := true },
      .ext (.subscribe (groupAddresses.map fun ga => ((topicText .lightSet ga).toList, 2))) ::
        (metaMessage :: groupAddresses.flatMap (configsOf labels)).map .ext, .ok ()) := C66_connect labels s

theorem C109_false : ¬ C109_claim := by
  intro h
  have h1 := (h 5 [] {}).1 (by decide)
  rw [C109_always] at h1
  injection h1 with _ h1
  injection h1 with h1 _
  cases h1

/-- C109 for an accepted connection.

What is missing: a refused one, see `C109_always`. -/
theorem C109_accepted_partial (labels : List (Int × Str)) (s : Client) :
    (Mqtt.onConnack 0 labels s).1.mqttApi = true ∧ ∀ ga ∈ groupAddresses, ∀ e ∈ configsOf labels ga,
      Eff.ext e ∈ (Mqtt.onConnack 0 labels s).2.1 := by
  rw [C109_always]
  refine ⟨rfl, fun ga hga e he => ?_⟩
  refine List.mem_cons_of_mem _ (List.mem_map.2 ⟨e, List.mem_cons_of_mem _ ?_, rfl⟩)
  exact List.mem_flatMap.2 ⟨ga, hga, he⟩

example : (56 : Int) ∈ groupAddresses ∧ (configsOf [] 56).length = 2 := by decide +kernel

end CBus.Props
