import Verif.Model.Repr
import Verif.Spec.Repr
import Verif.Lemmas.Text
import Verif.Lemmas.Basic
import Verif.Props.Warnings

/-! C158: the texts of packets tell what is in them. -/

namespace CBus.Props

open CBus CBus.Spec

/-! ## Texts that end where they end -/

/-- The characters behind a value. -/
def enders : List Char := [',', ')', '>', ']']

def Ends (r : Str) : Prop := ∃ c t, r = c :: t ∧ c ∈ enders

theorem ends_lit {c : Char} {t : Str} (h : c ∈ enders) : Ends (c :: t) := ⟨c, t, rfl, h⟩

theorem token_split : ∀ {x y r r' : Str}, (∀ c ∈ x, c ∉ enders) → (∀ c ∈ y, c ∉ enders) → Ends r → Ends r' →
    x ++ r = y ++ r' → x = y ∧ r = r'
  | [], [], _, _, _, _, _, _, h => ⟨rfl, h⟩
  | [], b :: y, _, _, _, hy, ⟨c, t, hr, hc⟩, _, h => by
    subst hr
    simp only [List.nil_append, List.cons_append, List.cons.injEq] at h
    exact absurd (h.1 ▸ hc) (hy b (by simp))
  | a :: x, [], _, _, hx, _, _, ⟨c, t, hr, hc⟩, h => by
    subst hr
    simp only [List.nil_append, List.cons_append, List.cons.injEq] at h
    exact absurd (h.1.symm ▸ hc) (hx a (by simp))
  | a :: x, b :: y, _, _, hx, hy, hr, hr', h => by
    simp only [List.cons_append, List.cons.injEq] at h
    obtain ⟨h1, h2⟩ := token_split (fun c hc => hx c (by simp [hc])) (fun c hc => hy c (by simp [hc])) hr hr' h.2
    exact ⟨by rw [h.1, h1], h2⟩

/-- A text from which the value can be read, whatever is behind it. -/
def ReadsBack {α : Type} (f : α → Str) : Prop := ∀ a b r r', Ends r → Ends r' → f a ++ r = f b ++ r' → a = b ∧ r = r'

theorem reads_token {α : Type} {f : α → Str} (h : ∀ a, ∀ c ∈ f a, c ∉ enders) (hi : ∀ a b, f a = f b → a = b) : ReadsBack f := by
  intro a b r r' hr hr' he
  obtain ⟨h1, h2⟩ := token_split (h a) (h b) hr hr' he
  exact ⟨hi _ _ h1, h2⟩

theorem digit_no_ender {c : Char} (h : (48 ≤ c.toNat ∧ c.toNat ≤ 57) ∨ c = '-') : c ∉ enders := by
  simp only [enders, List.mem_cons, List.not_mem_nil, or_false, not_or]
  refine ⟨?_, ?_, ?_, ?_⟩ <;> (rintro rfl; revert h; decide)

theorem reads_int : ReadsBack intStr := reads_token (fun a c hc => digit_no_ender (intStr_char a c hc)) fun _ _ h => intStr_inj h

theorem reads_nat : ReadsBack natStr := by
  refine reads_token (fun a c hc => digit_no_ender (.inl (natStr_digit a c hc))) fun a b h => ?_
  have e : ∀ n : Nat, intStr (n : Int) = natStr n := fun n => by
    unfold intStr
    rw [if_neg (by omega), Int.natAbs_natCast]
  have : intStr (a : Int) = intStr (b : Int) := by rw [e, e, h]
  have := intStr_inj this
  omega

theorem reads_bool : ReadsBack Repr.bool := by
  refine reads_token ?_ ?_
  · intro a; cases a <;> decide +kernel
  · intro a b; cases a <;> cases b <;> decide +kernel

theorem reads_optInt : ReadsBack Repr.optInt := by
  have hn : ∀ i : Int, Repr.lit "None" ≠ intStr i := fun i h =>
    absurd (intStr_char i 'N' (by rw [← h]; decide +kernel)) (by decide)
  refine reads_token ?_ ?_
  · intro a c hc
    cases a with
    | none => exact (by decide +kernel : ∀ c ∈ Repr.lit "None", c ∉ enders) c hc
    | some i => exact digit_no_ender (intStr_char i c hc)
  · intro a b h
    cases a <;> cases b
    · rfl
    · exact absurd h (hn _)
    · exact absurd h.symm (hn _)
    · exact congrArg some (intStr_inj h)

/-! ### Hexadecimal numbers -/

/-- The value of a digit. -/
def hexOf (c : Char) : Nat := if c.toNat < 58 then c.toNat - 48 else c.toNat - 87

theorem hexChar_table : ∀ n : Fin 16, hexOf (Repr.hexChar n) = n ∧ Repr.hexChar n ∉ enders ∧ Repr.hexChar n ≠ '-' := by
  decide +kernel

theorem hexChar_of {n : Nat} (h : n < 16) : hexOf (Repr.hexChar n) = n ∧ Repr.hexChar n ∉ enders ∧ Repr.hexChar n ≠ '-' :=
  hexChar_table ⟨n, h⟩

theorem hexAux : ∀ (f n : Nat), n < f → (Repr.hexStrAux f n).foldl (fun acc c => 16 * acc + hexOf c) 0 = n ∧
    (∀ c ∈ Repr.hexStrAux f n, c ∉ enders ∧ c ≠ '-') ∧ Repr.hexStrAux f n ≠ []
  | 0, _, h => absurd h (by omega)
  | f + 1, n, h => by
    unfold Repr.hexStrAux
    by_cases hn : n < 16
    · rw [if_pos hn]
      obtain ⟨h1, h2⟩ := hexChar_of hn
      refine ⟨by simp [h1], fun c hc => ?_, by simp⟩
      simp only [List.mem_singleton] at hc
      rw [hc]; exact h2
    · rw [if_neg hn]
      obtain ⟨h1, h2, h3⟩ := hexAux f (n / 16) (by omega)
      obtain ⟨h4, h5⟩ := hexChar_of (n := n % 16) (by omega)
      refine ⟨?_, fun c hc => ?_, by simp⟩
      · rw [List.foldl_append, h1]
        simp only [List.foldl_cons, List.foldl_nil, h4]
        omega
      · rcases List.mem_append.1 hc with hc | hc
        · exact h2 c hc
        · simp only [List.mem_singleton] at hc
          rw [hc]; exact h5

theorem hexStr_inj {a b : Nat} (h : Repr.hexStr a = Repr.hexStr b) : a = b := by
  have h1 := (hexAux (a + 1) a (by omega)).1
  have h2 := (hexAux (b + 1) b (by omega)).1
  unfold Repr.hexStr at h
  rw [← h1, h, h2]

theorem hexStr_char (n : Nat) : ∀ c ∈ Repr.hexStr n, c ∉ enders ∧ c ≠ '-' := (hexAux (n + 1) n (by omega)).2.1

theorem hexStr_ne_nil (n : Nat) : Repr.hexStr n ≠ [] := (hexAux (n + 1) n (by omega)).2.2

theorem reads_hexInt : ReadsBack Repr.hexInt := by
  have hne : ∀ (a : Nat) (t : Str), Repr.hexStr a ≠ '-' :: t := fun a t h =>
    (hexStr_char a '-' (by rw [h]; simp)).2 rfl
  refine reads_token ?_ ?_
  · intro a c hc
    unfold Repr.hexInt at hc
    split at hc
    · rcases List.mem_cons.1 hc with rfl | hc
      · decide
      · exact (hexStr_char _ c hc).1
    · exact (hexStr_char _ c hc).1
  · intro a b h
    unfold Repr.hexInt at h
    split at h <;> split at h
    · injection h with _ h; have := hexStr_inj h; omega
    · exact absurd h.symm (hne _ _)
    · exact absurd h (hne _ _)
    · have := hexStr_inj h; omega

/-! ### Texts that begin differently -/

theorem differ {a b : Str} (h : (a.isPrefixOf b || b.isPrefixOf a) = false) {r r' : Str} : a ++ r ≠ b ++ r' := by
  intro he
  simp only [Bool.or_eq_false_iff] at h
  have h1 : a <+: a ++ r := List.prefix_append _ _
  have h2 : b <+: a ++ r := he ▸ List.prefix_append _ _
  rcases List.prefix_or_prefix_of_prefix h1 h2 with h3 | h3
  · exact absurd (List.isPrefixOf_iff_prefix.2 h3) (by simp [h.1])
  · exact absurd (List.isPrefixOf_iff_prefix.2 h3) (by simp [h.2])

/-! ### Bytes -/

/-- How long the text of the first byte is. -/
def codeLength : Str → Nat
  | a :: b :: _ => if a = '\\' then if b = 'x' then 4 else 2 else 1
  | _ => 1

/-- The byte a text stands for. -/
def codeValue : Str → Nat
  | ['\\', 't'] => 9
  | ['\\', 'n'] => 10
  | ['\\', 'r'] => 13
  | ['\\', 'x', h, l] => 16 * hexOf h + hexOf l
  | ['\\', c] => c.toNat
  | [c] => c.toNat
  | _ => 0

/-- The quotes of `repr`. -/
def quotes : List UInt8 := [0x22, 0x27]

theorem byte_table : ∀ q ∈ quotes, ∀ b : UInt8, codeValue (Repr.byte q b) = b.toNat ∧
    (Repr.byte q b).length = codeLength (Repr.byte q b) ∧ (Repr.byte q b).head? ≠ some (Char.ofNat q.toNat) ∧
    Repr.byte q b ≠ [] ∧ ((Repr.byte q b).head? = some '\\' → 2 ≤ (Repr.byte q b).length) := by
  intro q hq
  simp only [quotes, List.mem_cons, List.not_mem_nil, or_false] at hq
  rcases hq with rfl | rfl
  · apply forall_byte; decide +kernel
  · apply forall_byte; decide +kernel

theorem codeLength_append {x r : Str} (h : x ≠ []) (h2 : x.head? = some '\\' → 2 ≤ x.length) :
    codeLength (x ++ r) = codeLength x := by
  match x with
  | [] => exact absurd rfl h
  | [c] =>
    have hc : c ≠ '\\' := fun hc => by have := h2 (by rw [hc]; rfl); simp at this
    cases r <;> simp [codeLength, hc]
  | a :: b :: t => simp [codeLength]

theorem bytes_split {q : UInt8} (hq : q ∈ quotes) : ∀ {d d' : Bytes} {r r' : Str},
    d.flatMap (Repr.byte q) ++ Char.ofNat q.toNat :: r = d'.flatMap (Repr.byte q) ++ Char.ofNat q.toNat :: r' → d = d' ∧ r = r'
  | [], [], _, _, h => by simpa using h
  | [], b :: d', _, _, h => by
    obtain ⟨-, -, h3, h4, -⟩ := byte_table q hq b
    simp only [List.flatMap_nil, List.nil_append, List.flatMap_cons, List.append_assoc] at h
    cases hb : Repr.byte q b with
    | nil => exact absurd hb h4
    | cons c t =>
      rw [hb] at h h3
      simp only [List.cons_append, List.cons.injEq] at h
      exact absurd (by simp [h.1]) h3
  | b :: d, [], _, _, h => by
    obtain ⟨-, -, h3, h4, -⟩ := byte_table q hq b
    simp only [List.flatMap_nil, List.nil_append, List.flatMap_cons, List.append_assoc] at h
    cases hb : Repr.byte q b with
    | nil => exact absurd hb h4
    | cons c t =>
      rw [hb] at h h3
      simp only [List.cons_append, List.cons.injEq] at h
      exact absurd (by simp [h.1]) h3
  | b :: d, b' :: d', r, r', h => by
    obtain ⟨v1, l1, -, n1, m1⟩ := byte_table q hq b
    obtain ⟨v2, l2, -, n2, m2⟩ := byte_table q hq b'
    simp only [List.flatMap_cons, List.append_assoc] at h
    have hl : codeLength (Repr.byte q b) = codeLength (Repr.byte q b') := by
      rw [← codeLength_append n1 m1, h, codeLength_append n2 m2]
    obtain ⟨h1, h2⟩ := List.append_inj h (by rw [l1, l2, hl])
    have hb : b = b' := UInt8.toNat_inj.1 (by rw [← v1, ← v2, h1])
    obtain ⟨h3, h4⟩ := bytes_split hq h2
    exact ⟨by rw [hb, h3], h4⟩

theorem reads_bytes : ∀ (d d' : Bytes) (r r' : Str), Repr.bytes d ++ r = Repr.bytes d' ++ r' → d = d' ∧ r = r' := by
  intro d d' r r' h
  have key : ∀ d : Bytes, ∃ q ∈ quotes, ∀ r, Repr.bytes d ++ r = 'b' :: Char.ofNat q.toNat :: (d.flatMap (Repr.byte q) ++
      Char.ofNat q.toNat :: r) := by
    intro d
    refine ⟨if (0x27 : UInt8) ∈ d ∧ (0x22 : UInt8) ∉ d then 0x22 else 0x27, ?_, fun r => by simp [Repr.bytes]⟩
    split <;> simp [quotes]
  obtain ⟨q, hq, e⟩ := key d
  obtain ⟨q', hq', e'⟩ := key d'
  rw [e, e'] at h
  simp only [List.cons.injEq, true_and] at h
  have hqq : q = q' := by
    have h1 := h.1
    clear h e e'
    simp only [quotes, List.mem_cons, List.not_mem_nil, or_false] at hq hq'
    rcases hq with rfl | rfl <;> rcases hq' with rfl | rfl <;> first | rfl | (revert h1; decide)
  subst hqq
  exact bytes_split hq h.2

/-! ### Lists -/

theorem lit_ends {s : String} (h : (Repr.lit s).head?.any (· ∈ enders) = true) {t : Str} : Ends (Repr.lit s ++ t) := by
  cases hs : Repr.lit s with
  | nil => simp [hs] at h
  | cons c u => exact ⟨c, u ++ t, rfl, by simpa [hs] using h⟩

/-- A value and a literal behind it. -/
theorem ReadsBack.upTo {α : Type} {f : α → Str} (hf : ReadsBack f) {a b : α} {s : String} {r r' : Str}
    (h : f a ++ (Repr.lit s ++ r) = f b ++ (Repr.lit s ++ r')) (hs : (Repr.lit s).head?.any (· ∈ enders) = true) :
    a = b ∧ r = r' := by
  obtain ⟨h1, h2⟩ := hf a b _ _ (lit_ends hs) (lit_ends hs) h
  exact ⟨h1, List.append_cancel_left h2⟩

theorem comma_ends {t : Str} : Ends (Repr.lit ", " ++ t) := lit_ends (by decide +kernel)
theorem paren_ends {t : Str} : Ends (Repr.lit ")" ++ t) := lit_ends (by decide +kernel)
theorem angle_ends {t : Str} : Ends (Repr.lit ">" ++ t) := lit_ends (by decide +kernel)

theorem reads_list {α : Type} : ∀ {l l' : List (α × Str)} {r r' : Str},
    (∀ a ∈ l, ∀ b ∈ l', ∀ r r', Ends r → Ends r' → a.2 ++ r = b.2 ++ r' → a.1 = b.1 ∧ r = r') →
    (∀ a ∈ l, a.2.head? ≠ some ']' ∧ a.2 ≠ []) → (∀ b ∈ l', b.2.head? ≠ some ']' ∧ b.2 ≠ []) →
    Repr.joined (l.map (·.2)) ++ ']' :: r = Repr.joined (l'.map (·.2)) ++ ']' :: r' →
    l.map (·.1) = l'.map (·.1) ∧ r = r'
  | [], [], _, _, _, _, _, h => by simpa [Repr.joined] using h
  | [], b :: l', _, _, _, _, hl', h => by
    obtain ⟨h1, h2⟩ := hl' b (by simp)
    have : ∃ t, Repr.joined ((b :: l').map (·.2)) = b.2 ++ t := by
      cases l' with
      | nil => exact ⟨[], by simp [Repr.joined]⟩
      | cons c l' => exact ⟨_, by simp only [List.map_cons, Repr.joined, List.append_assoc]; rfl⟩
    obtain ⟨t, ht⟩ := this
    rw [ht] at h
    cases hb : b.2 with
    | nil => exact absurd hb h2
    | cons c u =>
      rw [hb] at h h1
      simp only [List.map_nil, Repr.joined, List.nil_append, List.cons_append, List.cons.injEq] at h
      exact absurd (by rw [← h.1]; rfl) h1
  | a :: l, [], _, _, _, hl, _, h => by
    obtain ⟨h1, h2⟩ := hl a (by simp)
    have : ∃ t, Repr.joined ((a :: l).map (·.2)) = a.2 ++ t := by
      cases l with
      | nil => exact ⟨[], by simp [Repr.joined]⟩
      | cons c l' => exact ⟨_, by simp only [List.map_cons, Repr.joined, List.append_assoc]; rfl⟩
    obtain ⟨t, ht⟩ := this
    rw [ht] at h
    cases hb : a.2 with
    | nil => exact absurd hb h2
    | cons c u =>
      rw [hb] at h h1
      simp only [List.map_nil, Repr.joined, List.nil_append, List.cons_append, List.cons.injEq] at h
      exact absurd (by simp [h.1]) h1
  | a :: l, b :: l', r, r', hu, hl, hl', h => by
    have hab := hu a (by simp) b (by simp)
    match l, l' with
    | [], [] =>
      simp only [List.map_cons, List.map_nil, Repr.joined] at h ⊢
      obtain ⟨h1, h2⟩ := hab _ _ (ends_lit (by decide)) (ends_lit (by decide)) h
      simp only [List.cons.injEq, true_and] at h2
      exact ⟨by rw [h1], h2⟩
    | [], c :: l' =>
      simp only [List.map_cons, List.map_nil, Repr.joined, List.append_assoc] at h
      obtain ⟨h1, h2⟩ := hab _ _ (ends_lit (by decide)) comma_ends h
      exact absurd (show [']'] ++ r = _ from h2) (differ (by decide +kernel))
    | c :: l, [] =>
      simp only [List.map_cons, List.map_nil, Repr.joined, List.append_assoc] at h
      obtain ⟨h1, h2⟩ := hab _ _ comma_ends (ends_lit (by decide)) h
      exact absurd (show _ = [']'] ++ r' from h2) (differ (by decide +kernel))
    | c :: l, c' :: l' =>
      simp only [List.map_cons, Repr.joined, List.append_assoc] at h
      obtain ⟨h1, h2⟩ := hab _ _ comma_ends comma_ends h
      have h3 := reads_list (l := c :: l) (l' := c' :: l') (r := r) (r' := r')
        (fun a ha b hb => hu a (by simp [ha]) b (by simp [hb])) (fun a ha => hl a (by simp [ha])) (fun b hb => hl' b (by simp [hb]))
        (List.append_cancel_left h2)
      exact ⟨by rw [List.map_cons, h1, h3.1]; rfl, h3.2⟩

theorem reads_map {α : Type} {f : α → Str} (hf : ReadsBack f) (hn : ∀ a, (f a).head? ≠ some ']' ∧ f a ≠ []) :
    ∀ (l l' : List α) (r r' : Str), Repr.list (l.map f) ++ r = Repr.list (l'.map f) ++ r' → l = l' ∧ r = r' := by
  intro l l' r r' h
  have e : ∀ l : List α, l.map f = (l.map fun a => (a, f a)).map (·.2) := fun l => by simp [Function.comp_def]
  have e1 : ∀ l : List α, l = (l.map fun a => (a, f a)).map (·.1) := fun l => by simp [Function.comp_def]
  rw [e l, e l'] at h
  simp only [Repr.list, List.cons_append, List.append_assoc, List.nil_append, List.cons.injEq, true_and] at h
  obtain ⟨h1, h2⟩ := reads_list (l := l.map fun a => (a, f a)) (l' := l'.map fun a => (a, f a)) (by
    intro a ha b hb r r' hr hr' he
    obtain ⟨x, -, rfl⟩ := List.mem_map.1 ha
    obtain ⟨y, -, rfl⟩ := List.mem_map.1 hb
    exact hf x y r r' hr hr' he) (by
    intro a ha
    obtain ⟨x, -, rfl⟩ := List.mem_map.1 ha
    exact hn x) (by
    intro a ha
    obtain ⟨x, -, rfl⟩ := List.mem_map.1 ha
    exact hn x) h
  rw [← e1, ← e1] at h1
  exact ⟨h1, h2⟩

/-! ## The parts of packets -/

theorem reads_clock (v w : ClockVal) (r r' : Str) (h : Repr.clock v ++ r = Repr.clock w ++ r') : v = w ∧ r = r' := by
  cases v with
  | date d =>
    cases w with
    | date d' =>
      simp only [Repr.clock, List.append_assoc] at h
      replace h := List.append_cancel_left h
      obtain ⟨h1, h⟩ := reads_nat _ _ _ _ comma_ends comma_ends h
      replace h := List.append_cancel_left h
      obtain ⟨h2, h⟩ := reads_nat _ _ _ _ comma_ends comma_ends h
      replace h := List.append_cancel_left h
      obtain ⟨h3, h⟩ := reads_nat _ _ _ _ paren_ends paren_ends h
      replace h := List.append_cancel_left h
      refine ⟨?_, h⟩
      obtain ⟨y, m, d⟩ := d
      obtain ⟨y', m', d'⟩ := d'
      simp only at h1 h2 h3
      rw [h1, h2, h3]
    | time t =>
      simp only [Repr.clock, List.append_assoc] at h
      exact absurd h (differ (by decide +kernel))
  | time t =>
    cases w with
    | date d =>
      simp only [Repr.clock, List.append_assoc] at h
      exact absurd h (differ (by decide +kernel))
    | time t' =>
      simp only [Repr.clock, List.append_assoc] at h
      replace h := List.append_cancel_left h
      obtain ⟨h1, h⟩ := reads_nat _ _ _ _ comma_ends comma_ends h
      replace h := List.append_cancel_left h
      obtain ⟨hh, m, s, u⟩ := t
      obtain ⟨hh', m', s', u'⟩ := t'
      have ends : ∀ (s u : Nat) (r : Str), Ends ((if u ≠ 0 then Repr.lit ", " ++ (natStr s ++ (Repr.lit ", " ++ natStr u))
          else if s ≠ 0 then Repr.lit ", " ++ natStr s else []) ++ (Repr.lit ")" ++ r)) := by
        intro s u r
        split
        · rw [List.append_assoc]; exact comma_ends
        · split
          · rw [List.append_assoc]; exact comma_ends
          · exact paren_ends
      obtain ⟨h2, h⟩ := reads_nat _ _ _ _ (ends s u r) (ends s' u' r') h
      simp only at h1 h2
      have key : s = s' ∧ u = u' ∧ r = r' := by
        clear ends h1 h2
        have no : ∀ t t' : Str, Repr.lit ", " ++ t ≠ Repr.lit ")" ++ t' := fun t t' => differ (by decide +kernel)
        by_cases hu : u = 0
        · by_cases hs : s = 0
          · by_cases hu' : u' = 0
            · by_cases hs' : s' = 0
              · subst hu hs hu' hs'
                exact ⟨rfl, rfl, List.append_cancel_left (as := Repr.lit ")") h⟩
              · simp only [hu, hs, hu', ne_eq, not_true_eq_false, if_false, hs', not_false_eq_true, if_true, List.nil_append,
                  List.append_assoc] at h
                exact absurd h.symm (no _ _)
            · simp only [hu, hs, hu', ne_eq, not_true_eq_false, if_false, not_false_eq_true, if_true, List.nil_append,
                List.append_assoc] at h
              exact absurd h.symm (no _ _)
          · by_cases hu' : u' = 0
            · by_cases hs' : s' = 0
              · simp only [hu, hs, hu', ne_eq, not_true_eq_false, if_false, hs', not_false_eq_true, if_true, List.nil_append,
                  List.append_assoc] at h
                exact absurd h (no _ _)
              · simp only [hu, hs, hu', ne_eq, not_true_eq_false, if_false, hs', not_false_eq_true, if_true,
                  List.append_assoc] at h
                replace h := List.append_cancel_left h
                obtain ⟨h1, h⟩ := reads_nat _ _ _ _ paren_ends paren_ends h
                exact ⟨h1, by rw [hu, hu'], List.append_cancel_left (as := Repr.lit ")") h⟩
            · simp only [hu, hs, hu', ne_eq, not_true_eq_false, if_false, not_false_eq_true, if_true,
                List.append_assoc] at h
              replace h := List.append_cancel_left h
              obtain ⟨h1, h⟩ := reads_nat _ _ _ _ paren_ends comma_ends h
              exact absurd h.symm (no _ _)
        · by_cases hu' : u' = 0
          · by_cases hs' : s' = 0
            · simp only [hu, hu', ne_eq, not_true_eq_false, if_false, hs', not_false_eq_true, if_true, List.nil_append,
                List.append_assoc] at h
              exact absurd h (no _ _)
            · simp only [hu, hu', ne_eq, not_true_eq_false, if_false, hs', not_false_eq_true, if_true,
                List.append_assoc] at h
              replace h := List.append_cancel_left h
              obtain ⟨h1, h⟩ := reads_nat _ _ _ _ comma_ends paren_ends h
              exact absurd h (no _ _)
          · simp only [hu, hu', ne_eq, not_false_eq_true, if_true, List.append_assoc] at h
            replace h := List.append_cancel_left h
            obtain ⟨h1, h⟩ := reads_nat _ _ _ _ comma_ends comma_ends h
            replace h := List.append_cancel_left h
            obtain ⟨h2, h⟩ := reads_nat _ _ _ _ paren_ends paren_ends h
            exact ⟨h1, h2, List.append_cancel_left (as := Repr.lit ")") h⟩
      obtain ⟨h3, h4, h5⟩ := key
      exact ⟨by rw [h1, h2, h3, h4], h5⟩

/-- How the text of a SAL begins. -/
def salHead : SAL → Str
  | .lightOn _ => Repr.lit "<LightingOnSAL object: group_address="
  | .lightOff _ => Repr.lit "<LightingOffSAL object: group_address="
  | .lightTerminate _ => Repr.lit "<LightingTerminateRampSAL object: group_address="
  | .lightRamp _ _ _ => Repr.lit "<LightingRampSAL object: group_address="
  | .clockUpdate _ => Repr.lit "ClockUpdateSAL(val="
  | .clockRequest => Repr.lit "<" ++ Repr.lit "cbus.protocol.application.clock.ClockRequestSAL" ++ Repr.lit " object at 0x"
  | .temperature _ _ =>
    Repr.lit "<" ++ Repr.lit "cbus.protocol.application.temperature.TemperatureBroadcastSAL" ++ Repr.lit " object at 0x"
  | .enableSet _ _ =>
    Repr.lit "<" ++ Repr.lit "cbus.protocol.application.enable.EnableSetNetworkVariableSAL" ++ Repr.lit " object at 0x"
  | .statusRequest _ _ _ => Repr.lit "StatusRequestSAL(level_request="

theorem sal_head (e : Repr.Env) (i : Nat) (s : SAL) : ∃ t, ∀ r, Repr.sal e i s ++ r = salHead s ++ (t ++ r) := by
  have key : ∀ {a h t : Str}, a = h ++ t → ∃ t, ∀ r, a ++ r = h ++ (t ++ r) := fun {a h t} e =>
    ⟨t, fun r => by rw [e, List.append_assoc]⟩
  cases s <;> exact key (by simp only [Repr.sal, Repr.object, salHead, List.append_assoc]; rfl)

theorem sal_differ {e e' : Repr.Env} {i i' : Nat} {s s' : SAL}
    (h : ((salHead s).isPrefixOf (salHead s') || (salHead s').isPrefixOf (salHead s)) = false) {r r' : Str} :
    Repr.sal e i s ++ r ≠ Repr.sal e' i' s' ++ r' := by
  obtain ⟨t, ht⟩ := sal_head e i s
  obtain ⟨t', ht'⟩ := sal_head e' i' s'
  rw [ht, ht']
  exact differ h

/-- The level of a ramp is a whole number, as in every ramp that is received. -/
def WholeLevel : SAL → Prop
  | .lightRamp _ _ l => ∃ n : Int, l = .int n
  | _ => True

theorem reads_sal (e e' : Repr.Env) (i i' : Nat) (s s' : SAL) (hs : WholeLevel s) (hs' : WholeLevel s') (hq : ¬ Untold s)
    (r r' : Str) (h : Repr.sal e i s ++ r = Repr.sal e' i' s' ++ r') : s = s' ∧ r = r' := by
  cases s <;> cases s' <;> first
    | exact absurd trivial hq
    | exact absurd h (sal_differ (by simp only [salHead]; decide +kernel))
    | skip
  · simp only [Repr.sal, List.append_assoc] at h
    replace h := List.append_cancel_left h
    obtain ⟨rfl, h1⟩ := reads_int.upTo h (by decide +kernel)
    exact ⟨rfl, h1⟩
  · simp only [Repr.sal, List.append_assoc] at h
    replace h := List.append_cancel_left h
    obtain ⟨rfl, h1⟩ := reads_int.upTo h (by decide +kernel)
    exact ⟨rfl, h1⟩
  · simp only [Repr.sal, List.append_assoc] at h
    replace h := List.append_cancel_left h
    obtain ⟨rfl, h1⟩ := reads_int.upTo h (by decide +kernel)
    exact ⟨rfl, h1⟩
  · obtain ⟨n, rfl⟩ := hs
    obtain ⟨n', rfl⟩ := hs'
    simp only [Repr.sal, Repr.num, List.append_assoc] at h
    replace h := List.append_cancel_left h
    obtain ⟨rfl, h1⟩ := reads_int.upTo h (by decide +kernel)
    obtain ⟨rfl, h2⟩ := reads_int.upTo h1 (by decide +kernel)
    obtain ⟨rfl, h3⟩ := reads_int.upTo h2 (by decide +kernel)
    exact ⟨rfl, h3⟩
  · simp only [Repr.sal, List.append_assoc] at h
    replace h := List.append_cancel_left h
    obtain ⟨rfl, h1⟩ := reads_clock _ _ _ _ h
    exact ⟨rfl, List.append_cancel_left h1⟩
  · simp only [Repr.sal, Repr.object, List.append_assoc] at h
    replace h := List.append_cancel_left (List.append_cancel_left (List.append_cancel_left h))
    obtain ⟨-, h1⟩ := token_split (fun c hc => (hexStr_char _ c hc).1) (fun c hc => (hexStr_char _ c hc).1) angle_ends angle_ends h
    exact ⟨rfl, List.append_cancel_left h1⟩
  · simp only [Repr.sal, List.append_assoc] at h
    replace h := List.append_cancel_left h
    obtain ⟨rfl, h1⟩ := reads_bool.upTo h (by decide +kernel)
    obtain ⟨rfl, h2⟩ := reads_int.upTo h1 (by decide +kernel)
    obtain ⟨rfl, h3⟩ := reads_int.upTo h2 (by decide +kernel)
    exact ⟨rfl, h3⟩

/-- The SALs of a packet with their texts. -/
def withTexts (e : Repr.Env) : Nat → List SAL → List (SAL × Str)
  | _, [] => []
  | i, s :: rest => (s, Repr.sal e i s) :: withTexts e (i + 1) rest

theorem withTexts_fst (e : Repr.Env) : ∀ (i : Nat) (l : List SAL), (withTexts e i l).map (·.1) = l
  | _, [] => rfl
  | i, s :: rest => by simp [withTexts, withTexts_fst e (i + 1) rest]

theorem withTexts_snd (e : Repr.Env) : ∀ (i : Nat) (l : List SAL), (withTexts e i l).map (·.2) = Repr.sals e i l
  | _, [] => rfl
  | i, s :: rest => by simp [withTexts, Repr.sals, withTexts_snd e (i + 1) rest]

theorem withTexts_mem (e : Repr.Env) : ∀ {i : Nat} {l : List SAL} {a : SAL × Str}, a ∈ withTexts e i l →
    a.1 ∈ l ∧ ∃ j, a.2 = Repr.sal e j a.1
  | _, [], _, h => by simp [withTexts] at h
  | i, s :: rest, a, h => by
    simp only [withTexts, List.mem_cons] at h
    rcases h with rfl | h
    · exact ⟨by simp, i, rfl⟩
    · obtain ⟨h1, h2⟩ := withTexts_mem e h
      exact ⟨by simp [h1], h2⟩

theorem sal_first (e : Repr.Env) (i : Nat) (s : SAL) : (Repr.sal e i s).head? ≠ some ']' ∧ Repr.sal e i s ≠ [] := by
  obtain ⟨t, ht⟩ := sal_head e i s
  have h := ht []
  simp only [List.append_nil] at h
  have key : ∀ {x : Str}, x.head?.isSome ∧ x.head? ≠ some ']' → ∀ t, (x ++ t).head? ≠ some ']' ∧ x ++ t ≠ [] := by
    intro x hx t
    cases x with
    | nil => simp at hx
    | cons c x => simpa using hx
  rw [h]
  refine key ?_ t
  cases s <;> (simp only [salHead]; decide +kernel)

theorem reads_sals (e e' : Repr.Env) (l l' : List SAL) (hl : ∀ s ∈ l, WholeLevel s ∧ ¬ Untold s) (hl' : ∀ s ∈ l', WholeLevel s)
    (r r' : Str) (h : Repr.list (Repr.sals e 0 l) ++ r = Repr.list (Repr.sals e' 0 l') ++ r') : l = l' ∧ r = r' := by
  rw [← withTexts_snd, ← withTexts_snd] at h
  simp only [Repr.list, List.cons_append, List.append_assoc, List.nil_append, List.cons.injEq, true_and] at h
  obtain ⟨h1, h2⟩ := reads_list (by
    intro a ha b hb r r' hr hr' he
    obtain ⟨ha, j, hj⟩ := withTexts_mem e ha
    obtain ⟨hb, j', hj'⟩ := withTexts_mem e' hb
    rw [hj, hj'] at he
    exact reads_sal e e' j j' _ _ (hl _ ha).1 (hl' _ hb) (hl _ ha).2 r r' he) (by
    intro a ha
    obtain ⟨-, j, hj⟩ := withTexts_mem e ha
    rw [hj]; exact sal_first e j _) (by
    intro a ha
    obtain ⟨-, j, hj⟩ := withTexts_mem e' ha
    rw [hj]; exact sal_first e' j _) h
  rw [withTexts_fst, withTexts_fst] at h1
  exact ⟨h1, h2⟩

theorem reads_groupState : ReadsBack Repr.groupState := by
  intro a b r r' _ _ h
  cases a <;> cases b <;> first
    | exact ⟨rfl, List.append_cancel_left h⟩
    | (simp only [Repr.groupState] at h; exact absurd h (differ (by decide +kernel)))

theorem reads_report (a b : Report) (r r' : Str) (h : Repr.report a ++ r = Repr.report b ++ r') : a = b ∧ r = r' := by
  cases a with
  | binary l =>
    cases b with
    | binary l' =>
      simp only [Repr.report, List.append_assoc] at h
      obtain ⟨h1, h2⟩ := reads_map reads_groupState (by intro a; cases a <;> decide +kernel) _ _ _ _ (List.append_cancel_left h)
      exact ⟨by rw [h1], List.append_cancel_left h2⟩
    | level l' =>
      simp only [Repr.report, List.append_assoc] at h
      exact absurd h (differ (by decide +kernel))
  | level l =>
    cases b with
    | binary l' =>
      simp only [Repr.report, List.append_assoc] at h
      exact absurd h (differ (by decide +kernel))
    | level l' =>
      simp only [Repr.report, List.append_assoc] at h
      obtain ⟨h1, h2⟩ := reads_map reads_optInt (by
        intro a
        cases a with
        | none => decide +kernel
        | some i =>
          refine ⟨fun hi => ?_, intStr_ne_nil i⟩
          have := digit_no_ender (intStr_char i ']' (List.mem_of_mem_head? hi))
          exact this (by decide)) _ _ _ _ (List.append_cancel_left h)
      exact ⟨by rw [h1], List.append_cancel_left h2⟩

theorem attr_named : ∀ i j : Fin 18, i ≠ j →
    ((Repr.attr (i.val : Int)).isPrefixOf (Repr.attr (j.val : Int)) ||
      (Repr.attr (j.val : Int)).isPrefixOf (Repr.attr (i.val : Int))) = false := by decide +kernel

theorem attr_named_head : ∀ i : Fin 18, (Repr.attr (i.val : Int)).head? = some '<' := by decide +kernel

theorem attr_cases (a : Int) : (∃ i : Fin 18, a = (i.val : Int)) ∨ Repr.attr a = intStr a := by
  by_cases h : 0 ≤ a ∧ a < 18
  · exact .inl ⟨⟨a.natAbs, by omega⟩, by simp only; omega⟩
  · right
    unfold Repr.attr
    by_cases h0 : a < 0
    · rw [if_pos h0]
    · rw [if_neg h0, List.getElem?_eq_none (by simp [Repr.attributes]; omega)]

theorem intStr_head (a : Int) (r : Str) : (intStr a ++ r).head? ≠ some '<' := by
  intro h
  cases hi : intStr a with
  | nil => exact intStr_ne_nil a hi
  | cons c t =>
    rw [hi] at h
    simp only [List.cons_append, List.head?_cons, Option.some.injEq] at h
    subst h
    exact absurd (intStr_char a '<' (by rw [hi]; simp)) (by decide)

theorem reads_attr : ReadsBack Repr.attr := by
  intro a b r r' hr hr' h
  have hd : ∀ (i : Fin 18) (r : Str), (Repr.attr (i.val : Int) ++ r).head? = some '<' := by
    intro i r
    have h1 := attr_named_head i
    cases hi : Repr.attr (i.val : Int) with
    | nil => rw [hi] at h1; simp at h1
    | cons c t => rw [hi] at h1; simpa using h1
  rcases attr_cases a with ⟨i, rfl⟩ | ha
  · rcases attr_cases b with ⟨j, rfl⟩ | hb
    · by_cases hij : i = j
      · subst hij
        exact ⟨rfl, List.append_cancel_left h⟩
      · exact absurd h (differ (attr_named i j hij))
    · have h1 := hd i r
      rw [h, hb] at h1
      exact absurd h1 (intStr_head _ _)
  · rcases attr_cases b with ⟨j, rfl⟩ | hb
    · have h1 := hd j r'
      rw [← h, ha] at h1
      exact absurd h1 (intStr_head _ _)
    · rw [ha, hb] at h
      exact reads_int _ _ _ _ hr hr' h

theorem reads_cal (a b : CAL) (r r' : Str) (h : Repr.cal a ++ r = Repr.cal b ++ r') : a = b ∧ r = r' := by
  cases a <;> cases b <;> simp only [Repr.cal, List.append_assoc] at h <;> first
    | exact absurd h (differ (by decide +kernel))
    | skip
  · replace h := List.append_cancel_left h
    obtain ⟨rfl, h1⟩ := reads_attr.upTo h (by decide +kernel)
    exact ⟨rfl, h1⟩
  · replace h := List.append_cancel_left h
    obtain ⟨rfl, h1⟩ := reads_int.upTo h (by decide +kernel)
    obtain ⟨rfl, h2⟩ := reads_int.upTo h1 (by decide +kernel)
    exact ⟨rfl, h2⟩
  · replace h := List.append_cancel_left h
    obtain ⟨rfl, h1⟩ := reads_int.upTo h (by decide +kernel)
    obtain ⟨rfl, h2⟩ := reads_bytes _ _ _ _ h1
    exact ⟨rfl, List.append_cancel_left h2⟩
  · replace h := List.append_cancel_left h
    obtain ⟨rfl, h1⟩ := reads_bool.upTo h (by decide +kernel)
    obtain ⟨rfl, h2⟩ := reads_int.upTo h1 (by decide +kernel)
    obtain ⟨rfl, h3⟩ := reads_int.upTo h2 (by decide +kernel)
    obtain ⟨rfl, h4⟩ := reads_report _ _ _ _ h3
    exact ⟨rfl, List.append_cancel_left h4⟩

theorem cal_first (c : CAL) : (Repr.cal c).head? ≠ some ']' ∧ Repr.cal c ≠ [] := by
  have key : ∀ {x : Str}, x.head?.isSome ∧ x.head? ≠ some ']' → ∀ t, (x ++ t).head? ≠ some ']' ∧ x ++ t ≠ [] := by
    intro x hx t
    cases x with
    | nil => simp at hx
    | cons c x => simpa using hx
  cases c <;> simp only [Repr.cal, List.append_assoc] <;> exact key (by decide +kernel) _

/-! ## Packets -/

/-- The levels of the ramps of a packet are whole numbers. -/
def WholeLevels : Packet → Prop
  | .pm p => ∀ s ∈ p.sals, WholeLevel s
  | _ => True

/-- How the texts of packets begin. -/
def packetHeads : List Str :=
  [Repr.lit "<" ++ Repr.lit "cbus.protocol.po_packet.PowerOnPacket" ++ Repr.lit " object at 0x",
   Repr.lit "PCIErrorPacket()",
   Repr.lit "ConfirmationPacket(code=",
   Repr.lit "ResetPacket()",
   Repr.lit "SmartConnectShortcutPacket()",
   Repr.lit "InvalidPacket(payload=",
   Repr.lit "<PointToMultipointPacket object: application=",
   Repr.lit "<PointToPointPacket object: unit_address=",
   Repr.lit "DeviceManagementPacket(parameter=0x",
   Repr.lit "IdentifyCAL(attribute=",
   Repr.lit "RecallCAL(param=",
   Repr.lit "ReplyCAL(parameter=",
   Repr.lit "ExtendedCAL(externally_initated="]

/-- Which of them it is. -/
def packetTag : Packet → Nat
  | .powerOn => 0
  | .pciError => 1
  | .confirmation _ _ => 2
  | .reset => 3
  | .smartConnect => 4
  | .invalid _ _ => 5
  | .pm _ => 6
  | .pp _ => 7
  | .dm _ => 8
  | .cal (.identify _) => 9
  | .cal (.recall _ _) => 10
  | .cal (.reply _ _) => 11
  | .cal (.extended _ _ _ _) => 12

theorem packetHeads_length : packetHeads.length = 13 := rfl

theorem packetTag_lt (p : Packet) : packetTag p < 13 := by
  rcases p with _ | _ | _ | _ | _ | _ | _ | _ | _ | (_ | _ | _ | _) <;> simp [packetTag]

/-- How the text of a packet begins. -/
def packetHead (p : Packet) : Str := packetHeads.getD (packetTag p) []

theorem packet_head (e : Repr.Env) (p : Packet) : ∃ t, Repr.packet e p = packetHead p ++ t := by
  have key : ∀ {i : Nat} {x : Str}, packetTag p = i → packetHeads.getD i [] = x → ∀ {t}, Repr.packet e p = x ++ t →
      ∃ t, Repr.packet e p = packetHead p ++ t := by
    intro i x h1 h2 t h3
    exact ⟨t, by rw [h3, packetHead, h1, h2]⟩
  rcases p with _ | _ | _ | _ | _ | _ | _ | _ | _ | c
  case cal =>
    cases c
    · exact key (i := 9) rfl rfl (by simp only [Repr.packet, Repr.cal, List.append_assoc]; rfl)
    · exact key (i := 10) rfl rfl (by simp only [Repr.packet, Repr.cal, List.append_assoc]; rfl)
    · exact key (i := 11) rfl rfl (by simp only [Repr.packet, Repr.cal, List.append_assoc]; rfl)
    · exact key (i := 12) rfl rfl (by simp only [Repr.packet, Repr.cal, List.append_assoc]; rfl)
  · exact key (i := 0) rfl rfl (t := Repr.hexStr (e.address 0) ++ Repr.lit ">") (by
      simp only [Repr.packet, Repr.object, packetHeads, List.getD_cons_zero, List.append_assoc])
  · exact key (i := 1) rfl rfl (t := []) (by simp only [Repr.packet, List.append_nil]; rfl)
  · exact key (i := 2) rfl rfl (by simp only [Repr.packet, List.append_assoc]; rfl)
  · exact key (i := 3) rfl rfl (t := []) (by simp only [Repr.packet, List.append_nil]; rfl)
  · exact key (i := 4) rfl rfl (t := []) (by simp only [Repr.packet, List.append_nil]; rfl)
  · exact key (i := 5) rfl rfl (by simp only [Repr.packet, List.append_assoc]; rfl)
  · exact key (i := 6) rfl rfl (by simp only [Repr.packet, List.append_assoc]; rfl)
  · exact key (i := 7) rfl rfl (by simp only [Repr.packet, List.append_assoc]; rfl)
  · exact key (i := 8) rfl rfl (by simp only [Repr.packet, List.append_assoc]; rfl)

theorem packetHeads_table : ∀ i j : Fin 13, i ≠ j → ((packetHeads.getD i []).isPrefixOf (packetHeads.getD j []) ||
    (packetHeads.getD j []).isPrefixOf (packetHeads.getD i [])) = false := by decide +kernel

theorem packet_tag {e e' : Repr.Env} {p q : Packet} (h : Repr.packet e p = Repr.packet e' q) : packetTag q = packetTag p := by
  obtain ⟨t, ht⟩ := packet_head e p
  obtain ⟨t', ht'⟩ := packet_head e' q
  rw [ht, ht'] at h
  by_cases hd : packetTag q = packetTag p
  · exact hd
  · exact absurd h (differ (packetHeads_table ⟨_, packetTag_lt p⟩ ⟨_, packetTag_lt q⟩ fun h => hd (Fin.mk.inj h).symm))

theorem prioCode_inj {a b : Prio} (h : a.code.toNat = b.code.toNat) : a = b := by
  cases a <;> cases b <;> first | rfl | (revert h; decide)

theorem packet_same (e e' : Repr.Env) (p q : Packet) (hp : WholeLevels p) (hq : WholeLevels q)
    (hu : ∀ m, p = .pm m → ∀ s ∈ m.sals, ¬ Untold s) (h : Repr.packet e p = Repr.packet e' q) :
    SaysTheSame p q ∧ ∀ m n, p = .dm m → q = .dm n → m.checksum = n.checksum ∧ m.prio = n.prio := by
  have ht := packet_tag h
  cases p with
  | powerOn =>
    have : q = .powerOn := by
      rcases q with _ | _ | _ | _ | _ | _ | _ | _ | _ | (_ | _ | _ | _) <;> first | rfl | cases ht
    subst this
    exact ⟨.powerOn, fun _ _ hm => Packet.noConfusion hm⟩
  | pciError =>
    have : q = .pciError := by
      rcases q with _ | _ | _ | _ | _ | _ | _ | _ | _ | (_ | _ | _ | _) <;> first | rfl | cases ht
    subst this
    exact ⟨.pciError, fun _ _ hm => Packet.noConfusion hm⟩
  | reset =>
    have : q = .reset := by
      rcases q with _ | _ | _ | _ | _ | _ | _ | _ | _ | (_ | _ | _ | _) <;> first | rfl | cases ht
    subst this
    exact ⟨.reset, fun _ _ hm => Packet.noConfusion hm⟩
  | smartConnect =>
    have : q = .smartConnect := by
      rcases q with _ | _ | _ | _ | _ | _ | _ | _ | _ | (_ | _ | _ | _) <;> first | rfl | cases ht
    subst this
    exact ⟨.smartConnect, fun _ _ hm => Packet.noConfusion hm⟩
  | confirmation c s =>
    have : ∃ c' s', q = .confirmation c' s' := by
      rcases q with _ | _ | _ | _ | _ | _ | _ | _ | _ | (_ | _ | _ | _) <;> first | exact ⟨_, _, rfl⟩ | cases ht
    obtain ⟨c', s', rfl⟩ := this
    simp only [Repr.packet, List.append_assoc] at h
    obtain ⟨rfl, h1⟩ := reads_bytes _ _ _ _ (List.append_cancel_left h)
    have h2 : Repr.bool s ++ (Repr.lit ")" ++ []) = Repr.bool s' ++ (Repr.lit ")" ++ []) := by
      rw [List.append_nil]; exact List.append_cancel_left h1
    obtain ⟨rfl, -⟩ := reads_bool.upTo h2 (by decide +kernel)
    exact ⟨.confirmation _ _, fun _ _ hm => Packet.noConfusion hm⟩
  | invalid d x =>
    have : ∃ c' s', q = .invalid c' s' := by
      rcases q with _ | _ | _ | _ | _ | _ | _ | _ | _ | (_ | _ | _ | _) <;> first | exact ⟨_, _, rfl⟩ | cases ht
    obtain ⟨c', s', rfl⟩ := this
    simp only [Repr.packet, List.append_assoc] at h
    obtain ⟨rfl, h1⟩ := reads_bytes _ _ _ _ (List.append_cancel_left h)
    exact ⟨.invalid _ _ _, fun _ _ hm => Packet.noConfusion hm⟩
  | pm p =>
    have : ∃ c', q = .pm c' := by
      rcases q with _ | _ | _ | _ | _ | _ | _ | _ | _ | (_ | _ | _ | _) <;> first | exact ⟨_, rfl⟩ | cases ht
    obtain ⟨q, rfl⟩ := this
    simp only [Repr.packet, List.append_assoc] at h
    replace h := List.append_cancel_left h
    obtain ⟨h1, h2⟩ := reads_optInt.upTo h (by decide +kernel)
    obtain ⟨h3, h4⟩ := reads_optInt.upTo h2 (by decide +kernel)
    obtain ⟨h5, -⟩ := reads_sals e e' p.sals q.sals (fun s hs => ⟨hp s hs, hu p rfl s hs⟩) hq _ _ h4
    exact ⟨.pm _ _ h1 h3 h5, fun _ _ hm => Packet.noConfusion hm⟩
  | pp p =>
    have : ∃ c', q = .pp c' := by
      rcases q with _ | _ | _ | _ | _ | _ | _ | _ | _ | (_ | _ | _ | _) <;> first | exact ⟨_, rfl⟩ | cases ht
    obtain ⟨q, rfl⟩ := this
    simp only [Repr.packet, List.append_assoc] at h
    replace h := List.append_cancel_left h
    obtain ⟨h1, h2⟩ := reads_int.upTo h (by decide +kernel)
    obtain ⟨h3, h4⟩ := reads_bool.upTo h2 (by decide +kernel)
    obtain ⟨h5, -⟩ := reads_map (fun a b r r' _ _ h => reads_cal a b r r' h) cal_first _ _ _ _ h4
    exact ⟨.pp _ _ h1 h3 h5, fun _ _ hm => Packet.noConfusion hm⟩
  | dm p =>
    have : ∃ c', q = .dm c' := by
      rcases q with _ | _ | _ | _ | _ | _ | _ | _ | _ | (_ | _ | _ | _) <;> first | exact ⟨_, rfl⟩ | cases ht
    obtain ⟨q, rfl⟩ := this
    simp only [Repr.packet, List.append_assoc] at h
    replace h := List.append_cancel_left h
    obtain ⟨h1, h2⟩ := reads_hexInt.upTo h (by decide +kernel)
    obtain ⟨h3, h4⟩ := reads_hexInt.upTo h2 (by decide +kernel)
    obtain ⟨h5, h6⟩ := reads_bool.upTo h4 (by decide +kernel)
    have h7 : natStr p.prio.code.toNat ++ (Repr.lit ")" ++ []) = natStr q.prio.code.toNat ++ (Repr.lit ")" ++ []) := by
      rw [List.append_nil]; exact h6
    obtain ⟨h8, -⟩ := reads_nat.upTo h7 (by decide +kernel)
    refine ⟨.dm _ _ h1 h3, fun m n hm hn => ?_⟩
    injection hm with hm
    injection hn with hn
    subst hm hn
    exact ⟨h5, prioCode_inj h8⟩
  | cal c =>
    have : ∃ c', q = .cal c' := by
      have ht : 9 ≤ packetTag q := by rw [ht]; cases c <;> simp [packetTag]
      rcases q with _ | _ | _ | _ | _ | _ | _ | _ | _ | _ <;> first | exact ⟨_, rfl⟩ | (simp [packetTag] at ht)
    obtain ⟨c', rfl⟩ := this
    simp only [Repr.packet] at h
    have h' := (reads_cal c c' [] [] (by rw [List.append_nil, List.append_nil]; exact h)).1
    rw [h']
    exact ⟨.cal _, fun _ _ hm => Packet.noConfusion hm⟩

/-! ## What is received -/

theorem command_whole {a : AppHandler} {d rest : Bytes} {s : SAL} (h : Command a d (some s) rest) : WholeLevel s := by
  generalize hx : some s = x at h
  cases h <;> first
    | (injection hx with hx; subst hx; first | trivial | exact ⟨_, rfl⟩)
    | cases hx

theorem decoded_whole {a : AppHandler} {d : Bytes} {l : List SAL} (h : a.decodeSals d = .ok l) : ∀ s ∈ l, WholeLevel s := by
  obtain ⟨ws, hw⟩ := warns_exists a d.length d (Nat.le_refl _)
  induction hw generalizing l with
  | nil =>
    rw [(nil_w a).2] at h
    injection h with h
    subst h
    simp
  | command d s rest ws h' _ ih =>
    rw [command_eq h'] at h
    cases hr : a.decodeSals rest with
    | error e => rw [hr] at h; cases h
    | ok l' =>
      rw [hr] at h
      injection h with h
      subst h
      intro x hx
      simp only [Option.toList_some, List.singleton_append, List.mem_cons] at hx
      rcases hx with rfl | hx
      · exact command_whole h'
      · exact ih hr x hx
  | skipped d rest w ws h' hw _ ih =>
    rw [command_eq h'] at h
    cases hr : a.decodeSals rest with
    | error e => rw [hr] at h; cases h
    | ok l' =>
      rw [hr] at h
      injection h with h
      subst h
      simpa using ih hr
  | givenUp d w h' =>
    rw [(givenUp_w h').2] at h
    injection h with h
    subst h
    simp
  | cutOff d ha h' =>
    subst ha
    have hr : Refused .statusRequest d .indexError := by
      cases h' with
      | binary c rest hc hl => exact .shortBinaryRequest c rest hc hl
      | level rest hl => exact .shortLevelRequest rest hl
    rw [refused_eq hr] at h
    cases h
  | refused d e h' => rw [refused_eq h'] at h; cases h

theorem received_whole {d : Bytes} {cs strict fp : Bool} {p : Packet} {n : Nat}
    (h : decodePacket d cs strict fp = .ok (some p, n)) : WholeLevels p := by
  cases p with
  | pm p =>
    have key : ∀ {t ws}, Explains cs strict fp t p.sals ws → WholeLevels (.pm p) := fun ⟨_, _, _, _, _, _, _, _, h, _⟩ =>
      decoded_whole h
    cases fp with
    | true =>
      obtain ⟨t, rest, -, hx⟩ := C154_received d cs strict p n h
      exact key hx
    | false =>
      obtain ⟨t, c, rest, ws, -, hx, -⟩ := C154_sent d cs strict p n h
      exact key hx
  | _ => trivial

/-- The claim: the text of a packet that is received tells the sender and the commands; two
packets have the same text only if they say the same. -/
def C158_claim : Prop :=
  ∀ (e e' : Repr.Env) (d d' : Bytes) (cs strict fp cs' strict' fp' : Bool) (p q : Packet) (n n' : Nat),
    decodePacket d cs strict fp = .ok (some p, n) → decodePacket d' cs' strict' fp' = .ok (some q, n') →
    Repr.printed e (some p) = Repr.printed e' (some q) → SaysTheSame p q

/-- C158: for all packets but the ones with a temperature or a network variable. -/
theorem C158_partial (e e' : Repr.Env) (d d' : Bytes) (cs strict fp cs' strict' fp' : Bool) (p q : Packet) (n n' : Nat)
    (h : decodePacket d cs strict fp = .ok (some p, n)) (h' : decodePacket d' cs' strict' fp' = .ok (some q, n'))
    (hu : ∀ m, p = .pm m → ∀ s ∈ m.sals, ¬ Untold s)
    (ht : Repr.printed e (some p) = Repr.printed e' (some q)) :
    SaysTheSame p q ∧ ∀ m n, p = .dm m → q = .dm n → m.checksum = n.checksum ∧ m.prio = n.prio :=
  packet_same e e' p q (received_whole h) (received_whole h') hu ht

/-- C158: the name of an attribute alone tells which it is, and every attribute that can be asked for has one. -/
theorem C158_attributes (i j : Nat) (hi : i < 18) (hj : j < 18) (h : Repr.attributes[i]? = Repr.attributes[j]?) : i = j := by
  have key : ∀ i j : Fin 18, Repr.attributes[i.val]? = Repr.attributes[j.val]? → i = j := by decide +kernel
  exact congrArg Fin.val (key ⟨i, hi⟩ ⟨j, hj⟩ h)

/-- C158: nothing that is received has the text `None`, which is printed when there is nothing. -/
theorem C158_something (e : Repr.Env) (p : Packet) : Repr.printed e (some p) ≠ Repr.printed e none := by
  intro h
  obtain ⟨t, ht⟩ := packet_head e p
  have h1 : packetHead p ++ t = Repr.lit "None" ++ [] := by
    rw [List.append_nil, ← ht]; exact h
  have key : ∀ i : Fin 13, ((packetHeads.getD i []).isPrefixOf (Repr.lit "None") ||
    (Repr.lit "None").isPrefixOf (packetHeads.getD i [])) = false := by decide +kernel
  exact differ (key ⟨_, packetTag_lt p⟩) h1

/-- Everything is in one place. -/
def someEnv : Repr.Env := ⟨fun _ => 0x7f0000000000, fun _ => [], fun _ => []⟩

/-- Twenty and twenty-one degrees: the text is the name of the class, and the place in memory. -/
theorem C158_false : ¬ C158_claim := by
  intro h
  have h1 := h someEnv someEnv (ascii "05FA190002015095\r\n") (ascii "05FA190002015491\r\n") true true true true true true
    (.pm { app := some 0x19, src := some 0xfa, sals := [.temperature 1 (.flt 20)] })
    (.pm { app := some 0x19, src := some 0xfa, sals := [.temperature 1 (.flt 21)] }) 18 18
    (by decide +kernel) (by decide +kernel) rfl
  cases h1 with
  | pm _ _ _ _ h3 => exact absurd h3 (by decide +kernel)

/-- C158: of a report it does not tell which unit sent it, nor over which bridges it came. -/
theorem C158_untold (e : Repr.Env) (p : PP) (src : Option Int) (hops : List Int) :
    Repr.printed e (some (.pp { p with src := src, hops := hops })) = Repr.printed e (some (.pp p)) := rfl

/-- A light, a confirmation, a parameter, a request for the time at half past twelve and an answer
with quotes in it, as they are printed; and reports of two units, which are printed alike. -/
example :
    (∃ p, decodePacket (ascii "05FA380079014F\r\n") = .ok (some p, 16) ∧
      Repr.printed someEnv (some p) = ("<PointToMultipointPacket object: application=56, source_address=250, " ++
        "sals=[<LightingOnSAL object: group_address=1>]>").toList) ∧
    (∃ p, decodePacket (ascii "g.") = .ok (some p, 2) ∧
      Repr.printed someEnv (some p) = "ConfirmationPacket(code=b'g', success=True)".toList) ∧
    (∃ p, decodePacket (ascii "\\A3300059\r") false true false = .ok (some p, 10) ∧
      Repr.printed someEnv (some p) =
        "DeviceManagementPacket(parameter=0x30, value=0x59, checksum=False, priority_class=2)".toList) ∧
    Repr.sal someEnv 0 (.clockUpdate (.time ⟨12, 30, 0, 0⟩)) = "ClockUpdateSAL(val=datetime.time(12, 30))".toList ∧
    Repr.cal (.reply 1 [0x27, 0x22, 0x5c, 0x00]) = "ReplyCAL(parameter=1, data=b'\\'\"\\\\\\x00')".toList ∧
    (∃ p q, decodePacket (ascii "860100008401020304\r\n") false = .ok (some (.pp p), 20) ∧
      decodePacket (ascii "860200008401020304\r\n") false = .ok (some (.pp q), 20) ∧ p.src ≠ q.src ∧
      Repr.printed someEnv (some (.pp p)) = Repr.printed someEnv (some (.pp q))) := by
  refine ⟨⟨.pm { app := some 56, src := some 250, sals := [.lightOn 1] }, by decide +kernel, by decide +kernel⟩,
    ⟨.confirmation [0x67] true, by decide +kernel, by decide +kernel⟩,
    ⟨.dm { checksum := false, prio := .class2, parameter := 0x30, value := 0x59 }, by decide +kernel, by decide +kernel⟩,
    by decide +kernel, by decide +kernel, ?_⟩
  exact ⟨{ checksum := false, prio := .class2, unit := 0, cals := [.reply 1 [2, 3, 4]], src := some 1 },
    { checksum := false, prio := .class2, unit := 0, cals := [.reply 1 [2, 3, 4]], src := some 2 }, by decide +kernel,
    by decide +kernel, by decide +kernel, rfl⟩

end CBus.Props
