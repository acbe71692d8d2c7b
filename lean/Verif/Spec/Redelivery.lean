import Verif.Spec.HomeAssistant

/-! # Delivery at least once

MQTT 3.1.1, section 4.6, on messages with QoS 1: the messages 1, 2, 3, 4 may be received in the order
1, 2, 3, 2, 3, 4. -/

namespace CBus.Spec
open CBus

/-- What may still be received of the messages `xs` when the next one is number `n`: the next one; or the
sender begins again with one that it has sent before and goes on from there. In the end all have been received. -/
inductive Arrives {α : Type} (xs : List α) : Nat → List α → Prop
  | done : Arrives xs xs.length []
  | next (n : Nat) (x : α) (ys : List α) (h : xs[n]? = some x) (hr : Arrives xs (n + 1) ys) : Arrives xs n (x :: ys)
  | again (n m : Nat) (ys : List α) (h : m ≤ n) (hr : Arrives xs m ys) : Arrives xs n ys

/-- What the broker keeps on a topic: the payload of the last message. -/
def keptOn (topic : Str) (ms : List MqttEff) : Option MqttPayload := (ms.filterMap (Hass.onTopic topic)).getLast?

end CBus.Spec
