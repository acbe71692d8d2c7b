import Verif.Lemmas.JsonScan

/-! # What `json.dumps` writes -/

namespace CBus.Json
open CBus Spec.Json

/-! ## Texts without control characters -/

theorem digit_printable {c : Char} (h : isDigit c = true) : 32 ≤ c.toNat ∧ c.toNat ≤ 126 := by
  have := (isDigit_iff c).1 h
  omega

theorem natText_printable (n : Nat) : ∀ c ∈ (toString n).toList, 32 ≤ c.toNat ∧ c.toNat ≤ 126 := by
  intro c hc
  rw [toString_natStr] at hc
  exact digit_printable ((isDigit_iff _).2 (natStr_digit n c hc))

theorem number_printable {env : JEnv} {t : Str} {x : PyNum} (h : NumberText env t x) :
    ∀ c ∈ t, 32 ≤ c.toNat ∧ c.toNat ≤ 126 := by
  have hd : ∀ d, Digits d → ∀ c ∈ d, 32 ≤ c.toNat ∧ c.toNat ≤ 126 := fun d hd c hc =>
    digit_printable (((digits_iff d).1 hd).2 c hc)
  cases h with
  | nat n => exact natText_printable n
  | neg n =>
    intro c hc
    rcases List.mem_cons.1 hc with rfl | hc
    · decide
    · exact natText_printable n c hc
  | real sign n f e hs hf he h =>
    intro c hc
    simp only [List.mem_append] at hc
    rcases hc with ((hc | hc) | hc) | hc
    · rcases hs with rfl | rfl
      · cases hc
      · rw [List.mem_singleton.1 hc]; decide
    · exact natText_printable n c hc
    · rcases hf with rfl | ⟨d, rfl, h'⟩
      · cases hc
      · rcases List.mem_cons.1 hc with rfl | hc
        · decide
        · exact hd d h' c hc
    · rcases he with rfl | ⟨x, sg, d, rfl, hx, hs, h⟩
      · cases hc
      · rcases List.mem_cons.1 hc with rfl | hc
        · rcases hx with rfl | rfl <;> decide
        · rcases List.mem_append.1 hc with hc | hc
          · rcases hs with rfl | rfl | rfl
            · cases hc
            · rw [List.mem_singleton.1 hc]; decide
            · rw [List.mem_singleton.1 hc]; decide
          · exact hd d h c hc

/-! ## Strings -/

theorem hexChar_spec : ∀ n : Fin 16, HexDigit (hexChar n.val) n.val ∧ 32 ≤ (hexChar n.val).toNat ∧
    (hexChar n.val).toNat ≤ 126 := by decide +kernel

theorem escape4_spec {n : Nat} (h : n < 65536) : ∃ x, escape4 n = '\\' :: 'u' :: x ∧ Hex4 x n := by
  refine ⟨_, rfl, ?_⟩
  have h1 := (hexChar_spec ⟨n / 4096 % 16, by omega⟩).1
  have h2 := (hexChar_spec ⟨n / 256 % 16, by omega⟩).1
  have h3 := (hexChar_spec ⟨n / 16 % 16, by omega⟩).1
  have h4 := (hexChar_spec ⟨n % 16, by omega⟩).1
  exact ⟨_, _, _, _, _, _, _, _, rfl, h1, h2, h3, h4, by simp only; omega⟩

theorem escape4_printable (n : Nat) : ∀ c ∈ escape4 n, 32 ≤ c.toNat ∧ c.toNat ≤ 126 := by
  intro c hc
  simp only [escape4, List.mem_cons, List.not_mem_nil, or_false] at hc
  rcases hc with rfl | rfl | rfl | rfl | rfl | rfl
  · decide
  · decide
  · exact (hexChar_spec ⟨n / 4096 % 16, by omega⟩).2
  · exact (hexChar_spec ⟨n / 256 % 16, by omega⟩).2
  · exact (hexChar_spec ⟨n / 16 % 16, by omega⟩).2
  · exact (hexChar_spec ⟨n % 16, by omega⟩).2

theorem dumpChar_text (env : JEnv) (c : Char) {t x : Str} (h : StringText env t x) :
    StringText env (dumpChar c ++ t) (c :: x) := by
  have hv := char_valid c
  unfold dumpChar
  split
  · rename_i e; subst e; exact .escape _ _ _ _ (by decide) h
  split
  · rename_i e; subst e; exact .escape _ _ _ _ (by decide) h
  split
  · rename_i e; subst e; exact .escape _ _ _ _ (by decide) h
  split
  · rename_i e; subst e; exact .escape _ _ _ _ (by decide) h
  split
  · rename_i e; subst e; exact .escape _ _ _ _ (by decide) h
  split
  · rename_i e; exact .escape _ _ _ _ (by rw [e]; decide) h
  split
  · rename_i e; exact .escape _ _ _ _ (by rw [e]; decide) h
  split
  · rename_i hq hb _ _ _ _ _ hc
    exact .plain c t x hc.1 hq hb h
  split
  · rename_i hc
    obtain ⟨y, e, hy⟩ := escape4_spec hc
    rw [e]
    exact .unicode y c t x hy h
  · rename_i hc
    obtain ⟨y, e, hy⟩ := escape4_spec (n := 0xd800 + (c.toNat - 0x10000) / 0x400) (by omega)
    obtain ⟨z, e', hz⟩ := escape4_spec (n := 0xdc00 + (c.toNat - 0x10000) % 0x400) (by omega)
    rw [e, e']
    have := StringText.pair (env := env) y z c t x (by omega) hy hz h
    simpa using this

theorem dumpChar_printable (c : Char) : ∀ d ∈ dumpChar c, 32 ≤ d.toNat ∧ d.toNat ≤ 126 := by
  intro d hd
  unfold dumpChar at hd
  split at hd
  · revert d; decide
  split at hd
  · revert d; decide
  split at hd
  · revert d; decide
  split at hd
  · revert d; decide
  split at hd
  · revert d; decide
  split at hd
  · revert d; decide
  split at hd
  · revert d; decide
  split at hd
  · rename_i h
    rw [List.mem_singleton.1 hd]; exact h
  split at hd
  · exact escape4_printable _ d hd
  · rcases List.mem_append.1 hd with hd | hd
    · exact escape4_printable _ d hd
    · exact escape4_printable _ d hd

theorem dumpString_text (env : JEnv) (s : Str) : StringText env (s.flatMap dumpChar) s := by
  induction s with
  | nil => exact .nil
  | cons c s ih => rw [List.flatMap_cons]; exact dumpChar_text env c ih

/-! ## Values -/

theorem dictOf_nodup (l : List (Str × JVal)) (h : (l.map (·.1)).Nodup) : dictOf l = l := by
  have key : ∀ (l d : List (Str × JVal)), ((d ++ l).map (·.1)).Nodup →
      l.foldl (fun d m => dictSet d m.1 m.2) d = d ++ l := by
    intro l
    induction l with
    | nil => intro d _; simp
    | cons m l ih =>
      intro d hd
      rw [List.foldl_cons]
      have hs : dictSet d m.1 m.2 = d ++ [m] := by
        unfold dictSet
        have : d.any (fun p => p.1 = m.1) = false := by
          rw [List.any_eq_false]
          intro p hp
          simp only [List.map_append, List.map_cons] at hd
          have := (List.nodup_append.1 hd).2.2 p.1 (List.mem_map_of_mem hp) m.1 List.mem_cons_self
          simpa using this
        rw [this]
        rfl
      rw [hs, ih _ (by simpa using hd)]
      simp
  have := key l [] (by simpa using h)
  simpa [dictOf] using this

theorem blank_nil : Blank [] := fun _ hc => by cases hc
theorem blank_space : Blank [' '] := fun _ hc => .inl (List.mem_singleton.1 hc)

theorem dumpItems_part (env : JEnv) : ∀ (l : List JVal), l ≠ [] →
    (∀ v ∈ l, Part env (dumps env v) (.value v)) → Part env (dumpItems env l) (.items l)
  | [], h, _ => absurd rfl h
  | [v], _, h => by
    rw [dumpItems]
    have := Part.item _ [] v (h v (by simp)) blank_nil
    simpa using this
  | v :: w :: l, _, h => by
    rw [dumpItems]
    · have := Part.items _ [] [' '] _ v (w :: l) (h v (by simp)) blank_nil blank_space
        (dumpItems_part env (w :: l) (by simp) fun x hx => h x (List.mem_cons_of_mem _ hx))
      simpa using this
    · intro h; cases h

theorem dumpMembers_part (env : JEnv) : ∀ (l : List (Str × JVal)), l ≠ [] →
    (∀ m ∈ l, Part env (dumps env m.2) (.value m.2)) → Part env (dumpMembers env l) (.members l)
  | [], h, _ => absurd rfl h
  | [(k, v)], _, h => by
    rw [dumpMembers]
    have := Part.member _ k [] [' '] _ [] v (dumpString_text env k) blank_nil blank_space (h (k, v) (by simp)) blank_nil
    simpa [dumpString] using this
  | (k, v) :: w :: l, _, h => by
    rw [dumpMembers]
    · have := Part.members _ k [] [' '] _ [] [' '] _ v (w :: l) (dumpString_text env k) blank_nil blank_space
        (h (k, v) (by simp)) blank_nil blank_space
        (dumpMembers_part env (w :: l) (by simp) fun x hx => h x (List.mem_cons_of_mem _ hx))
      simpa [dumpString] using this
    · intro h; cases h

theorem dumps_part (env : JEnv) {v : JVal} (h : Exact env v) : Part env (dumps env v) (.value v) := by
  induction h with
  | null => exact .null
  | bool b =>
    cases b
    · exact .false
    · exact .true
  | int i =>
    rw [dumps, dumpNum]
    refine .num _ _ ?_
    unfold intStr
    split
    · rename_i hi
      have := NumberText.neg (env := env) i.natAbs
      rw [toString_natStr] at this
      have e : (-(i.natAbs : Int)) = i := by omega
      rw [e] at this
      exact this
    · rename_i hi
      have := NumberText.nat (env := env) i.natAbs
      rw [toString_natStr] at this
      have e : ((i.natAbs : Int)) = i := by omega
      rw [e] at this
      exact this
  | float q h => exact .num _ _ h
  | nan => exact .nan
  | inf b =>
    cases b
    · exact .infinity
    · exact .negInfinity
  | str s =>
    have := Part.str _ s (dumpString_text env s)
    simpa [dumps, dumpString] using this
  | arr l h ih =>
    rw [dumps]
    by_cases hl : l = []
    · subst hl
      exact .emptyArr [] blank_nil
    · have := Part.arr [] _ l blank_nil (dumpItems_part env l hl ih)
      simpa using this
  | obj l hn h ih =>
    rw [dumps]
    by_cases hl : l = []
    · subst hl
      exact .emptyObj [] blank_nil
    · have := Part.obj [] _ l blank_nil (dumpMembers_part env l hl ih)
      rw [dictOf_nodup l hn] at this
      simpa using this

theorem dumpString_printable (s : Str) : ∀ c ∈ dumpString s, 32 ≤ c.toNat ∧ c.toNat ≤ 126 := by
  intro c hc
  simp only [dumpString, List.cons_append, List.mem_cons, List.mem_append, List.mem_flatMap, List.not_mem_nil,
    or_false] at hc
  rcases hc with rfl | ⟨d, -, hd⟩ | rfl
  · decide
  · exact dumpChar_printable d c hd
  · decide

theorem dumpItems_printable (env : JEnv) : ∀ (l : List JVal),
    (∀ v ∈ l, ∀ c ∈ dumps env v, 32 ≤ c.toNat ∧ c.toNat ≤ 126) →
    ∀ c ∈ dumpItems env l, 32 ≤ c.toNat ∧ c.toNat ≤ 126
  | [], _, c, hc => by simp [dumpItems] at hc
  | [v], h, c, hc => by
    rw [dumpItems] at hc
    exact h v (by simp) c hc
  | v :: w :: l, h, c, hc => by
    rw [dumpItems] at hc
    · simp only [List.mem_append] at hc
      rcases hc with (hc | hc) | hc
      · exact h v (by simp) c hc
      · revert c; decide
      · exact dumpItems_printable env (w :: l) (fun x hx => h x (List.mem_cons_of_mem _ hx)) c hc
    · intro h; cases h

theorem dumpMembers_printable (env : JEnv) : ∀ (l : List (Str × JVal)),
    (∀ m ∈ l, ∀ c ∈ dumps env m.2, 32 ≤ c.toNat ∧ c.toNat ≤ 126) →
    ∀ c ∈ dumpMembers env l, 32 ≤ c.toNat ∧ c.toNat ≤ 126
  | [], _, c, hc => by simp [dumpMembers] at hc
  | [(k, v)], h, c, hc => by
    rw [dumpMembers] at hc
    simp only [List.mem_append] at hc
    rcases hc with (hc | hc) | hc
    · exact dumpString_printable k c hc
    · revert c; decide
    · exact h (k, v) (by simp) c hc
  | (k, v) :: w :: l, h, c, hc => by
    rw [dumpMembers] at hc
    · simp only [List.mem_append] at hc
      rcases hc with (((hc | hc) | hc) | hc) | hc
      · exact dumpString_printable k c hc
      · revert c; decide
      · exact h (k, v) (by simp) c hc
      · revert c; decide
      · exact dumpMembers_printable env (w :: l) (fun x hx => h x (List.mem_cons_of_mem _ hx)) c hc
    · intro h; cases h

theorem dumps_printable (env : JEnv) {v : JVal} (h : Exact env v) : ∀ c ∈ dumps env v, 32 ≤ c.toNat ∧ c.toNat ≤ 126 := by
  induction h with
  | null => rw [dumps]; decide
  | bool b => rw [dumps]; cases b <;> decide
  | int i =>
    rw [dumps, dumpNum]
    intro c hc
    unfold intStr at hc
    split at hc
    · rcases List.mem_cons.1 hc with rfl | hc
      · decide
      · rw [← toString_natStr] at hc; exact natText_printable _ c hc
    · rw [← toString_natStr] at hc; exact natText_printable _ c hc
  | float q h => exact number_printable h
  | nan => rw [dumps, dumpNum]; decide
  | inf b => rw [dumps, dumpNum]; cases b <;> decide
  | str s => rw [dumps]; exact dumpString_printable s
  | arr l h ih =>
    rw [dumps]
    intro c hc
    simp only [List.cons_append, List.mem_cons, List.mem_append, List.not_mem_nil, or_false] at hc
    rcases hc with rfl | hc | rfl
    · decide
    · exact dumpItems_printable env l ih c hc
    · decide
  | obj l hn h ih =>
    rw [dumps]
    intro c hc
    simp only [List.cons_append, List.mem_cons, List.mem_append, List.not_mem_nil, or_false] at hc
    rcases hc with rfl | hc | rfl
    · decide
    · exact dumpMembers_printable env l ih c hc
    · decide

/-! ## Bytes -/

theorem utf8Text_utf8 (s : Str) : utf8Text (utf8 s) = some s := by
  have : ByteArray.mk (utf8 s).toArray = List.utf8Encode s := by
    unfold List.utf8Encode utf8
    apply ByteArray.ext
    simp
  rw [utf8Text, this, List.utf8Decode?_utf8Encode]
  simp

theorem utf8EncodeChar_first (c : Char) : ∃ b r, String.utf8EncodeChar c = b :: r ∧ b ≠ 0xfe ∧ b ≠ 0xff ∧
    (c.toNat ≠ 0 → ∀ x ∈ b :: r, x ≠ 0) := by
  have key : ∀ n k : Nat, k < 256 → n ≠ k → n < 256 → UInt8.ofNat n ≠ UInt8.ofNat k := by
    intro n k hk h hn e
    have := congrArg UInt8.toNat e
    simp at this
    omega
  have hv : c.val.toNat = c.toNat := rfl
  unfold String.utf8EncodeChar
  simp only [hv]
  split
  · refine ⟨_, _, rfl, key _ 254 (by omega) (by omega) (by omega), key _ 255 (by omega) (by omega) (by omega), ?_⟩
    intro h x hx
    rw [List.mem_singleton.1 hx]
    exact key _ 0 (by omega) (by omega) (by omega)
  · split
    · refine ⟨_, _, rfl, key _ 254 (by omega) (by omega) (by omega), key _ 255 (by omega) (by omega) (by omega), ?_⟩
      intro h x hx
      simp only [List.mem_cons, List.not_mem_nil, or_false] at hx
      rcases hx with rfl | rfl <;> exact key _ 0 (by omega) (by omega) (by omega)
    · split
      · refine ⟨_, _, rfl, key _ 254 (by omega) (by omega) (by omega), key _ 255 (by omega) (by omega) (by omega), ?_⟩
        intro h x hx
        simp only [List.mem_cons, List.not_mem_nil, or_false] at hx
        rcases hx with rfl | rfl | rfl <;> exact key _ 0 (by omega) (by omega) (by omega)
      · refine ⟨_, _, rfl, key _ 254 (by omega) (by omega) (by omega), key _ 255 (by omega) (by omega) (by omega), ?_⟩
        intro h x hx
        simp only [List.mem_cons, List.not_mem_nil, or_false] at hx
        rcases hx with rfl | rfl | rfl | rfl <;> exact key _ 0 (by omega) (by omega) (by omega)

theorem utf8_nonzero {s : Str} (h : ∀ c ∈ s, c.toNat ≠ 0) : ∀ b ∈ utf8 s, b ≠ 0 := by
  intro b hb
  obtain ⟨c, hc, hb⟩ := List.mem_flatMap.1 hb
  obtain ⟨x, r, e, -, -, hx⟩ := utf8EncodeChar_first c
  rw [e] at hb
  exact hx (h c hc) b hb

theorem utf8_bom {s : Str} {r : Bytes} (h : utf8 s = 0xef :: 0xbb :: 0xbf :: r) : s.head? = some (Char.ofNat 0xfeff) := by
  cases s with
  | nil => cases h
  | cons c s =>
    have h1 := ByteArray.utf8DecodeChar?_utf8EncodeChar_append (b := (utf8 s).toByteArray) (c := c)
    have h2 := ByteArray.utf8DecodeChar?_utf8EncodeChar_append (b := r.toByteArray) (c := Char.ofNat 0xfeff)
    have e : (String.utf8EncodeChar c).toByteArray ++ (utf8 s).toByteArray =
        (String.utf8EncodeChar (Char.ofNat 0xfeff)).toByteArray ++ r.toByteArray := by
      rw [← List.toByteArray_append, ← List.toByteArray_append]
      congr 1
    rw [e, h2] at h1
    cases h1
    rfl

theorem detectUtf8_utf8 {s : Str} (h : ∀ c ∈ s, c.toNat ≠ 0) (hb : s.head? ≠ some (Char.ofNat 0xfeff)) :
    detectUtf8 (utf8 s) = true := by
  have hz := utf8_nonzero h
  have hbom : bom (utf8 s) = false := by
    unfold bom
    rw [List.any_eq_false]
    intro p hp hpre
    obtain ⟨r, hr⟩ := List.isPrefixOf_iff_prefix.1 hpre
    simp only [List.mem_cons, List.not_mem_nil, or_false] at hp
    cases s with
    | nil => rcases hp with rfl | rfl | rfl | rfl | rfl <;> cases hr
    | cons c s =>
      obtain ⟨b, t, e, h1, h2, -⟩ := utf8EncodeChar_first c
      have hu : utf8 (c :: s) = b :: (t ++ utf8 s) := by
        unfold utf8
        rw [List.flatMap_cons, e]
        rfl
      rcases hp with rfl | rfl | rfl | rfl | rfl
      · exact hz 0 (by rw [← hr]; simp) rfl
      · rw [hu] at hr
        simp at hr
        exact h2 hr.1.symm
      · rw [hu] at hr
        simp at hr
        exact h1 hr.1.symm
      · rw [hu] at hr
        simp at hr
        exact h2 hr.1.symm
      · exact hb (utf8_bom (r := r) hr.symm)
  unfold detectUtf8
  rw [hbom]
  simp only [Bool.not_false, Bool.true_and]
  split
  · rw [List.all_eq_true]
    intro x hx
    simpa using hz x (List.mem_of_mem_take hx)
  · split
    · rw [List.all_eq_true]
      intro x hx
      simpa using hz x hx
    · rfl

theorem loads_utf8 (env : JEnv) {s : Str} (h : ∀ c ∈ s, c.toNat ≠ 0) (hb : s.head? ≠ some (Char.ofNat 0xfeff)) :
    loads env (utf8 s) = loadsText env s := by
  unfold loads
  rw [detectUtf8_utf8 h hb, if_pos rfl, utf8Text_utf8]
  rfl

/-- No JSON text contains a zero character. -/
theorem string_nonzero {env : JEnv} {t x : Str} (h : StringText env t x) : ∀ c ∈ t, c.toNat ≠ 0 := by
  have hx : ∀ {x : Str} {n : Nat}, Hex4 x n → ∀ c ∈ x, c.toNat ≠ 0 := by
    rintro x n ⟨a, b, c, d, a', b', c', d', rfl, ha, hb, hc, hd, -⟩ e he
    have key : ∀ {c : Char} {x : Nat}, HexDigit c x → c.toNat ≠ 0 := by
      intro c x hc h0
      have : c = Char.ofNat 0 := by rw [← h0, Char.ofNat_toNat]
      subst this
      rcases hc with hc | hc
      · have := List.mem_of_getElem? hc
        revert this; decide
      · have := List.mem_of_getElem? hc
        revert this; decide
    simp only [List.mem_cons, List.not_mem_nil, or_false] at he
    rcases he with rfl | rfl | rfl | rfl
    · exact key ha
    · exact key hb
    · exact key hc
    · exact key hd
  induction h with
  | nil => intro c hc; cases hc
  | plain c t s h hq hb ht ih =>
    intro d hd
    rcases List.mem_cons.1 hd with rfl | hd
    · omega
    · exact ih d hd
  | escape e c t s h ht ih =>
    intro d hd
    rcases List.mem_cons.1 hd with rfl | hd
    · decide
    rcases List.mem_cons.1 hd with rfl | hd
    · simp only [escapes, List.mem_cons, Prod.mk.injEq, List.not_mem_nil, or_false] at h
      rcases h with ⟨rfl, -⟩ | ⟨rfl, -⟩ | ⟨rfl, -⟩ | ⟨rfl, -⟩ | ⟨rfl, -⟩ | ⟨rfl, -⟩ | ⟨rfl, -⟩ | ⟨rfl, -⟩ <;> decide
    · exact ih d hd
  | unicode x c t s h ht ih =>
    intro d hd
    simp only [List.mem_cons, List.mem_append] at hd
    rcases hd with rfl | rfl | hd | hd
    · decide
    · decide
    · exact hx h d hd
    · exact ih d hd
  | pair x y c t s h h1 h2 ht ih =>
    intro d hd
    simp only [List.mem_cons, List.mem_append] at hd
    rcases hd with rfl | rfl | hd | rfl | rfl | hd | hd
    · decide
    · decide
    · exact hx h1 d hd
    · decide
    · decide
    · exact hx h2 d hd
    · exact ih d hd
  | lone x n t s h h1 h2 ht ih =>
    intro d hd
    simp only [List.mem_cons, List.mem_append] at hd
    rcases hd with rfl | rfl | hd | hd
    · decide
    · decide
    · exact hx h d hd
    · exact ih d hd

theorem blank_nonzero {w : Str} (h : Blank w) : ∀ c ∈ w, c.toNat ≠ 0 := by
  intro c hc
  rcases h c hc with rfl | rfl | rfl | rfl <;> decide

theorem part_nonzero {env : JEnv} {t : Str} {m : Meaning} (h : Part env t m) : ∀ c ∈ t, c.toNat ≠ 0 := by
  induction h with
  | null => decide
  | «true» => decide
  | «false» => decide
  | nan => decide
  | infinity => decide
  | negInfinity => decide
  | num t x h =>
    intro c hc
    have := number_printable h c hc
    omega
  | str t s h =>
    intro c hc
    simp only [List.mem_cons, List.mem_append, List.not_mem_nil, or_false] at hc
    rcases hc with rfl | hc | rfl
    · decide
    · exact string_nonzero h c hc
    · decide
  | emptyArr w h =>
    intro c hc
    simp only [List.mem_cons, List.mem_append, List.not_mem_nil, or_false] at hc
    rcases hc with rfl | hc | rfl
    · decide
    · exact blank_nonzero h c hc
    · decide
  | arr w t l hw h ih =>
    intro c hc
    simp only [List.mem_cons, List.mem_append, List.not_mem_nil, or_false] at hc
    rcases hc with rfl | hc | hc | rfl
    · decide
    · exact blank_nonzero hw c hc
    · exact ih c hc
    · decide
  | emptyObj w h =>
    intro c hc
    simp only [List.mem_cons, List.mem_append, List.not_mem_nil, or_false] at hc
    rcases hc with rfl | hc | rfl
    · decide
    · exact blank_nonzero h c hc
    · decide
  | obj w t l hw h ih =>
    intro c hc
    simp only [List.mem_cons, List.mem_append, List.not_mem_nil, or_false] at hc
    rcases hc with rfl | hc | hc | rfl
    · decide
    · exact blank_nonzero hw c hc
    · exact ih c hc
    · decide
  | item t w v h hw ih =>
    intro c hc
    rcases List.mem_append.1 hc with hc | hc
    · exact ih c hc
    · exact blank_nonzero hw c hc
  | items t w w' t' v l h hw hw' h' ih ih' =>
    intro c hc
    simp only [List.mem_cons, List.mem_append] at hc
    rcases hc with hc | hc | rfl | hc | hc
    · exact ih c hc
    · exact blank_nonzero hw c hc
    · decide
    · exact blank_nonzero hw' c hc
    · exact ih' c hc
  | member k n w w' t w'' v hk hw hw' h hw'' ih =>
    intro c hc
    simp only [List.mem_cons, List.mem_append] at hc
    rcases hc with rfl | hc | rfl | hc | rfl | hc | hc | hc
    · decide
    · exact string_nonzero hk c hc
    · decide
    · exact blank_nonzero hw c hc
    · decide
    · exact blank_nonzero hw' c hc
    · exact ih c hc
    · exact blank_nonzero hw'' c hc
  | members k n w w' t w'' w₃ t' v l hk hw hw' h hw'' hw₃ h' ih ih' =>
    intro c hc
    simp only [List.mem_cons, List.mem_append] at hc
    rcases hc with rfl | hc | rfl | hc | rfl | hc | hc | hc | rfl | hc | hc
    · decide
    · exact string_nonzero hk c hc
    · decide
    · exact blank_nonzero hw c hc
    · decide
    · exact blank_nonzero hw' c hc
    · exact ih c hc
    · exact blank_nonzero hw'' c hc
    · decide
    · exact blank_nonzero hw₃ c hc
    · exact ih' c hc

/-- The first character of a value. -/
theorem part_first {env : JEnv} {t : Str} {v : JVal} (h : Part env t (.value v)) : t.head? ≠ some (Char.ofNat 0xfeff) := by
  intro e
  have lit : ∀ {c : Char} {r : Str}, t = c :: r → c ≠ Char.ofNat 0xfeff → False := by
    rintro c r rfl hc
    simp at e
    exact hc e
  generalize hm : Meaning.value v = m at h
  cases h with
  | null => exact lit rfl (by decide)
  | «true» => exact lit rfl (by decide)
  | «false» => exact lit rfl (by decide)
  | nan => exact lit rfl (by decide)
  | infinity => exact lit rfl (by decide)
  | negInfinity => exact lit rfl (by decide)
  | num t x h =>
    have := number_printable h (Char.ofNat 0xfeff) (List.mem_of_mem_head? e)
    revert this; decide
  | str => exact lit rfl (by decide)
  | emptyArr => exact lit rfl (by decide)
  | arr => exact lit rfl (by decide)
  | emptyObj => exact lit rfl (by decide)
  | obj => exact lit rfl (by decide)
  | item => cases hm
  | items => cases hm
  | member => cases hm
  | members => cases hm

theorem jsonText_plain {env : JEnv} {s : Str} {v : JVal} (h : JsonText env s v) :
    (∀ c ∈ s, c.toNat ≠ 0) ∧ s.head? ≠ some (Char.ofNat 0xfeff) := by
  obtain ⟨w, t, w', rfl, hw, hw', hp⟩ := h
  refine ⟨?_, ?_⟩
  · intro c hc
    simp only [List.mem_append] at hc
    rcases hc with hc | hc | hc
    · exact blank_nonzero hw c hc
    · exact part_nonzero hp c hc
    · exact blank_nonzero hw' c hc
  · cases w with
    | nil =>
      obtain ⟨c, r, rfl, -⟩ := part_starts hp
      have := part_first hp
      simpa using this
    | cons c w =>
      intro e
      simp at e
      rcases hw c List.mem_cons_self with h | h | h | h <;> rw [h] at e <;> revert e <;> decide

end CBus.Json
