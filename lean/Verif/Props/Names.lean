import Verif.Spec.Names
import Verif.Props.Url

/-! # C155: documents are saved under the names that their addresses spell -/

namespace CBus.Props
open CBus CBus.Spec CBus.Url

instance (c : Char) (v : Nat) : Decidable (HexDigitOf c v) := inferInstanceAs (Decidable (_ ∨ _))

theorem hexDigitOf_lt {c : Char} {v : Nat} (h : HexDigitOf c v) : v < 16 := by
  rcases h with h | h <;> exact (List.getElem?_eq_some_iff.1 h).1

theorem hexDigitOf_ascii {c : Char} {v : Nat} (h : HexDigitOf c v) : c.toNat < 128 := by
  have h1 : ∀ c ∈ "0123456789abcdef".toList, c.toNat < 128 := by decide
  have h2 : ∀ c ∈ "0123456789ABCDEF".toList, c.toNat < 128 := by decide
  rcases h with h | h
  · exact h1 c (List.mem_of_getElem? h)
  · exact h2 c (List.mem_of_getElem? h)

theorem hexDigitVal_lt : ∀ b : UInt8, ∀ v ∈ hexDigitVal b, v < 16 := by apply forall_byte; decide +kernel

theorem hexDigitVal_table : ∀ b : UInt8, ∀ v : Fin 16, hexDigitVal b = some v.val ↔ HexDigitOf (Char.ofNat b.toNat) v.val := by
  apply forall_byte; decide +kernel

theorem hexDigitVal_iff {c : Char} (hc : c.toNat < 128) (v : Nat) :
    hexDigitVal (UInt8.ofNat c.toNat) = some v ↔ HexDigitOf c v := by
  have h256 : (UInt8.ofNat c.toNat).toNat = c.toNat := Nat.mod_eq_of_lt (by omega)
  have key : ∀ hv : v < 16, hexDigitVal (UInt8.ofNat c.toNat) = some v ↔ HexDigitOf c v := by
    intro hv
    have := hexDigitVal_table (UInt8.ofNat c.toNat) ⟨v, hv⟩
    rwa [h256, Char.ofNat_toNat] at this
  exact ⟨fun h => (key (hexDigitVal_lt _ _ h)).1 h, fun h => (key (hexDigitOf_lt h)).2 h⟩

theorem unquoteBytes_cons {p : UInt8} (hp : p ≠ 0x25) (t : Bytes) : unquoteBytes (p :: t) = p :: unquoteBytes t := by
  match t with
  | [] => rfl
  | [_] => rfl
  | a :: b :: t => rw [unquoteBytes, if_neg hp]

theorem unquoteBytes_stray {t : Bytes} (h : ∀ a b u, t = a :: b :: u → hexDigitVal a = none ∨ hexDigitVal b = none) :
    unquoteBytes (0x25 :: t) = 0x25 :: unquoteBytes t := by
  match t with
  | [] => rfl
  | [_] => rfl
  | a :: b :: t =>
    rw [unquoteBytes, if_pos rfl]
    rcases h a b t rfl with h | h
    · rw [h]
    · rw [h]; cases hexDigitVal a <;> rfl

/-- The characters of text as octets. -/
def octets (s : Str) : Bytes := s.map fun c => UInt8.ofNat c.toNat

/-- Text that spells octets is of ASCII characters and decoded as these octets. -/
theorem spells_bytes {s : Str} {o : Bytes} (h : Spells s o) : (∀ c ∈ s, c.toNat < 128) ∧ unquoteBytes (octets s) = o := by
  induction h with
  | nil => exact ⟨by simp, rfl⟩
  | plain c t o hc hp _ ih =>
    refine ⟨by simpa [hc] using ih.1, ?_⟩
    have hne : UInt8.ofNat c.toNat ≠ 0x25 := by
      intro h
      have h256 : (UInt8.ofNat c.toNat).toNat = c.toNat := Nat.mod_eq_of_lt (by omega)
      have : c.toNat = 0x25 := by rw [← h256, h]; rfl
      exact hp (by rw [← Char.ofNat_toNat c, this])
    show unquoteBytes (UInt8.ofNat c.toNat :: octets t) = _
    rw [unquoteBytes_cons hne, ih.2]
  | escape a b x y t o ha hb _ ih =>
    have h1 := hexDigitOf_ascii ha
    have h2 := hexDigitOf_ascii hb
    refine ⟨by simpa [h1, h2] using ih.1, ?_⟩
    show unquoteBytes (0x25 :: UInt8.ofNat a.toNat :: UInt8.ofNat b.toNat :: octets t) = _
    rw [unquoteBytes, if_pos rfl, (hexDigitVal_iff h1 x).2 ha, (hexDigitVal_iff h2 y).2 hb]
    simp only [ih.2, Nat.mul_comm 16 x]
  | stray t o hn _ ih =>
    refine ⟨by simpa using ih.1, ?_⟩
    show unquoteBytes (0x25 :: octets t) = _
    rw [unquoteBytes_stray, ih.2]
    intro a b u hu
    match t, hu, hn, ih with
    | a' :: b' :: t, hu, hn, ih =>
      simp only [octets, List.map_cons, List.cons.injEq] at hu
      have h1 : a'.toNat < 128 := ih.1 a' (by simp)
      have h2 : b'.toNat < 128 := ih.1 b' (by simp)
      cases ha : hexDigitVal a with
      | none => exact .inl rfl
      | some x =>
        cases hb : hexDigitVal b with
        | none => exact .inr rfl
        | some y =>
          rw [← hu.1] at ha
          rw [← hu.2.1] at hb
          exact absurd ⟨(hexDigitVal_iff h1 x).1 ha, (hexDigitVal_iff h2 y).1 hb⟩ (hn a' b' t x y rfl)

theorem spells_exists : ∀ (n : Nat) (s : Str), s.length ≤ n → (∀ c ∈ s, c.toNat < 128) → ∃ o, Spells s o := by
  intro n
  induction n with
  | zero =>
    intro s hs _
    have : s = [] := by simpa using hs
    subst this
    exact ⟨_, .nil⟩
  | succ n ih =>
    intro s hs hc
    match s with
    | [] => exact ⟨_, .nil⟩
    | c :: t =>
      have ht : t.length ≤ n := by simpa using hs
      have hct : ∀ c ∈ t, c.toNat < 128 := fun c h => hc c (List.mem_cons_of_mem _ h)
      by_cases hp : c = '%'
      · subst hp
        by_cases he : ∃ a b u x y, t = a :: b :: u ∧ HexDigitOf a x ∧ HexDigitOf b y
        · obtain ⟨a, b, u, x, y, rfl, ha, hb⟩ := he
          obtain ⟨o, ho⟩ := ih u (by simp at ht; omega) (fun c h => hct c (by simp [h]))
          exact ⟨_, .escape a b x y u o ha hb ho⟩
        · obtain ⟨o, ho⟩ := ih t ht hct
          exact ⟨_, .stray t o (fun a b u x y h1 h2 => he ⟨a, b, u, x, y, h1, h2⟩) ho⟩
      · obtain ⟨o, ho⟩ := ih t ht hct
        exact ⟨_, .plain c t o (hc c (by simp)) hp ho⟩

/-- C155: every text of ASCII characters spells octets, and only these. -/
theorem C155_spells (s : Str) (hs : ∀ c ∈ s, c.toNat < 128) : ∃ o, Spells s o ∧ ∀ o', Spells s o' → o' = o := by
  obtain ⟨o, h⟩ := spells_exists s.length s (Nat.le_refl _) hs
  exact ⟨o, h, fun o' h' => (spells_bytes h').2.symm.trans (spells_bytes h).2⟩

theorem unquoteGo_ascii (e : Url.Env) : ∀ (s : Str) (run : Bytes) (t : Str), (∀ c ∈ s, c.toNat < 128) →
    unquoteGo e run (s ++ t) = unquoteGo e (run ++ octets s) t := by
  intro s
  induction s with
  | nil => intro run t _; simp [octets]
  | cons c s ih =>
    intro run t hs
    rw [List.cons_append, unquoteGo, if_pos (hs c (by simp)), ih _ _ (fun c h => hs c (List.mem_cons_of_mem _ h))]
    simp [octets]

theorem unquoteGo_nil (e : Url.Env) (s : Str) : unquoteGo e [] s = Url.unquote e s := by
  unfold Url.unquote
  by_cases h : '%' ∈ s
  · rw [if_pos h]
  · rw [if_neg h, unquoteGo_plain e s h [] [] (fun x hx => unquoteBytes_plain x hx) (by simp)]
    rfl

/-- C155: `unquote` decodes the octets that the text spells. -/
theorem C155_unquote (e : Url.Env) (s : Str) (o : Bytes) (h : Spells s o) : Url.unquote e s = e.decode o := by
  obtain ⟨h1, h2⟩ := spells_bytes h
  rw [← unquoteGo_nil, ← List.append_nil s, unquoteGo_ascii e s [] [] h1, List.nil_append, unquoteGo, h2]

/-- C155: a character that is not ASCII stays what it is and where it is. -/
theorem C155_other (e : Url.Env) (c : Char) (hc : ¬ c.toNat < 128) (s t : Str) :
    Url.unquote e (s ++ c :: t) = Url.unquote e s ++ c :: Url.unquote e t := by
  rw [← unquoteGo_nil, ← unquoteGo_nil e s, ← unquoteGo_nil e t]
  have : ∀ (s : Str) (run : Bytes), unquoteGo e run (s ++ c :: t) = unquoteGo e run s ++ c :: unquoteGo e [] t := by
    intro s
    induction s with
    | nil => intro run; simp only [List.nil_append, unquoteGo, if_neg hc]
    | cons x s ih =>
      intro run
      by_cases hx : x.toNat < 128
      · simp only [List.cons_append, unquoteGo, if_pos hx, ih]
      · simp only [List.cons_append, unquoteGo, if_neg hx, ih, List.append_assoc]
  exact this s []

/-- C155: if all requests are answered and all links can be read, every document of the
page is in the directory under the name that the last part of its path spells. -/
theorem C155_documents (e : Url.Env) (get : Str → Option Tools.Answer) (tags : List (Str × List (Str × Option Str)))
    (destination : Str) (before : Tools.Contents) (hg : ∀ u, get u ≠ none)
    (hr : ∀ t ∈ tags, ∃ l, startTag e [] t.1 t.2 = .ok l) (t : Str × List (Str × Option Str)) (ht : t ∈ tags) (p : Parsed)
    (hp : startTag e [] t.1 t.2 = .ok [p]) (parents name : Str) (hpath : p.path = parents ++ '/' :: name) (hn : '/' ∉ name)
    (o : Bytes) (ho : Spells name o) :
    Tools.joinPath destination (e.decode o) ∈
      (downloadAll e get (some tags) .directory destination before).1.map (·.1) := by
  have h := (C144_partial e get tags destination before hg hr).2 t ht p hp
  have hl : Tools.lastPart p.path = name := by
    rw [hpath]
    unfold Tools.lastPart
    rw [List.reverse_append, List.reverse_cons, List.append_assoc, List.takeWhile_append_of_pos]
    · simp
    · intro c hc
      simp only [List.mem_reverse] at hc
      simp only [decide_eq_true_eq]
      rintro rfl
      exact hn hc
  unfold savedAs at h
  rwa [hl, C155_unquote e name o ho] at h

/-- The name of the terms, a letter in two octets in either case, and signs that are not
followed by digits. -/
example :
    Url.unquote asciiEnv "Open%20C-Bus%2fx.pdf".toList = "Open C-Bus/x.pdf".toList ∧
    Spells "%c3%A9".toList [0xc3, 0xa9] ∧ Spells "100%.pdf".toList (ascii "100%.pdf") ∧
    Spells "%%41g%4".toList (ascii "%Ag%4") ∧ ¬ Spells "%4g".toList [0x40] := by
  refine ⟨by decide +kernel, ?_, ?_, ?_, fun h => ?_⟩
  · obtain ⟨o, h, -⟩ := C155_spells "%c3%A9".toList (by decide)
    have := (spells_bytes h).2
    rw [show unquoteBytes (octets "%c3%A9".toList) = [0xc3, 0xa9] by decide +kernel] at this
    rwa [this]
  · obtain ⟨o, h, -⟩ := C155_spells "100%.pdf".toList (by decide)
    have := (spells_bytes h).2
    rw [show unquoteBytes (octets "100%.pdf".toList) = ascii "100%.pdf" by decide +kernel] at this
    rwa [this]
  · obtain ⟨o, h, -⟩ := C155_spells "%%41g%4".toList (by decide)
    have := (spells_bytes h).2
    rw [show unquoteBytes (octets "%%41g%4".toList) = ascii "%Ag%4" by decide +kernel] at this
    rwa [this]
  · have := (spells_bytes h).2
    revert this
    decide +kernel

end CBus.Props
