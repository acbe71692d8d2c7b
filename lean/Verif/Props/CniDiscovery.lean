import Verif.Spec.CniDiscovery

/-! # C107: a query is answered as a network interface answers it -/

namespace CBus.Props
open CBus CBus.Spec CBus.Discovery

theorem take_query (d : Bytes) : d.take 4 = query ↔ IsQuery d := by
  unfold IsQuery query
  match d with
  | [] | [_] | [_, _] | [_, _, _] => simp
  | a :: b :: c :: e :: r => simp

/-- C107 except for the port. A query is answered with one datagram, to where it came from, in
the documented layout; nothing else is answered. Missing: that the port in it is the one on
which the interface listens (`C107_false`). -/
theorem C107_answer_partial (data : Bytes) (host : Str) (port : Nat) :
    (IsQuery data → ∃ r b, DiscoveryReply.Bytes r b ∧ r.product ≠ 2 ∧
      datagramReceived data host port = .ok [⟨b, host, port⟩]) ∧
    (¬ IsQuery data → datagramReceived data host port = .ok []) := by
  constructor
  · intro h
    refine ⟨⟨[0x20, 0xe8, 0xf5, 0x52], 5, 0x2721, 0, [0x66, 0x1e]⟩, _, ⟨rfl, rfl, by decide, rfl⟩, by decide, ?_⟩
    unfold datagramReceived
    have ha : b16decode answerText = .ok [0xcb, 0x81, 0, 0, 0x20, 0xe8, 0xf5, 0x52, 0x81, 0x01, 0x00, 0x01, 0x05, 0x81,
        0x0b, 0x00, 0x02, 0x27, 0x21, 0x81, 0x1d, 0x00, 0x01, 0x00, 0x80, 0x01, 0x00, 0x02, 0x66, 0x1e] := by
      decide +kernel
    simp only [if_pos ((take_query data).2 h), ha]
    rfl
  · intro h
    unfold datagramReceived
    simp only [if_neg (fun hq => h ((take_query data).1 hq)), ite_self]

/-- C107: an answer is not answered, so two of these programs do not keep each other busy. -/
theorem C107_quiet (data : Bytes) (host : Str) (port : Nat) (out : List Datagram)
    (h : datagramReceived data host port = .ok out) (d : Datagram) (hd : d ∈ out) (host' : Str) (port' : Nat) :
    datagramReceived d.data host' port' = .ok [] := by
  obtain ⟨h1, h2⟩ := C107_answer_partial data host port
  by_cases hq : IsQuery data
  · obtain ⟨r, b, ⟨-, -, -, hb⟩, -, he⟩ := h1 hq
    rw [h] at he
    injection he with he
    subst he
    simp only [List.mem_singleton] at hd
    subst hd
    refine (C107_answer_partial _ _ _).2 ?_
    rintro ⟨t, ht⟩
    simp only [hb] at ht
    simp at ht
  · rw [h2 hq] at h
    injection h with h
    subst h
    cases hd

/-- C107 is false of the code: network interfaces listen on port 10001, which is also the port
on which the simulated one listens by default (pciserverprotocol.py:494), but the port
that is announced is 10017. -/
theorem C107_false : ¬ (∀ (data : Bytes) (host : Str) (port : Nat), IsQuery data →
    ∃ r b, DiscoveryReply.Bytes r b ∧ r.port = 10001 ∧ datagramReceived data host port = .ok [⟨b, host, port⟩]) := by
  intro h
  obtain ⟨r, b, ⟨h1, h2, h3, hb⟩, hp, he⟩ := h [0xcb, 0x80, 0, 0] [] 0 ⟨[], rfl⟩
  have hc : datagramReceived [0xcb, 0x80, 0, 0] [] 0 = .ok [⟨[0xcb, 0x81, 0, 0, 0x20, 0xe8, 0xf5, 0x52, 0x81, 0x01, 0x00,
      0x01, 0x05, 0x81, 0x0b, 0x00, 0x02, 0x27, 0x21, 0x81, 0x1d, 0x00, 0x01, 0x00, 0x80, 0x01, 0x00, 0x02, 0x66, 0x1e],
      [], 0⟩] := by decide +kernel
  rw [hc] at he
  injection he with he
  injection he with he
  injection he with he
  rw [hb, hp] at he
  have h18 := congrArg (fun l : Bytes => l[18]?) he
  obtain ⟨u, pr, po, u6, u8⟩ := r
  simp only at h1 h18
  match u, h1 with
  | [a, b, c, d], _ => simp at h18

/-- The query of docs/cni-discovery.rst, and what is answered. -/
example : datagramReceived ([0xcb, 0x80, 0, 0, 0, 0, 0, 0, 1, 1, 1, 0x0b, 1, 0x1d, 0x80, 1, 2, 0x47, 0xff])
    "172.26.1.81".toList 20050 = .ok [⟨[0xcb, 0x81, 0, 0, 0x20, 0xe8, 0xf5, 0x52, 0x81, 0x01, 0x00,
      0x01, 0x05, 0x81, 0x0b, 0x00, 0x02, 0x27, 0x21, 0x81, 0x1d, 0x00, 0x01, 0x00, 0x80, 0x01, 0x00, 0x02, 0x66, 0x1e],
      "172.26.1.81".toList, 20050⟩] := by decide +kernel

end CBus.Props
