import Verif.Model.AuthFile
import Verif.Props.Discovery
import Verif.Props.Life
import Verif.Props.Main

/-! # C136: the file with the user name and the password -/

namespace CBus.Props
open CBus CBus.Daemon CBus.Spec

/-- A character of ASCII. -/
def IsAscii (s : Str) : Prop := ∀ c ∈ s, c.toNat < 128

/-- The ways to end a line. -/
def LineEnd (e : Str) : Prop := e = ['\n'] ∨ e = ['\r', '\n'] ∨ e = ['\r']

/-- A text without line breaks, with no white space around it. -/
def OneLine (u : UniTable) (s : Str) : Prop := '\n' ∉ s ∧ '\r' ∉ s ∧ Stripped u.isSpace s s

/-- The file says this user name and this password: the first line is the user name, the
second is the password, all lines end in the same way, and the file is in UTF-8, as the
help of `--broker-auth` demands. -/
def AuthFile (u : UniTable) (user pass : Str) (content : Bytes) : Prop :=
  OneLine u user ∧ OneLine u pass ∧ ∃ e rest, LineEnd e ∧
    (content = Json.utf8 (user ++ e ++ pass) ∨ content = Json.utf8 (user ++ e ++ pass ++ e ++ rest))

/-- The encoding of a locale writes ASCII as ASCII. -/
def Ordinary (charset : Charset) : Prop := ∀ s, IsAscii s → charset (Json.utf8 s) = some s

/-! ## Lines -/

theorem newlines_append {a : Str} (h : '\r' ∉ a) (r : Str) : newlines (a ++ r) = a ++ newlines r := by
  induction a with
  | nil => rfl
  | cons c a ih =>
    simp only [List.mem_cons, not_or] at h
    have := ih h.2
    rw [List.cons_append, List.cons_append, ← this]
    rw [newlines.eq_def]
    split <;> simp_all

theorem newlines_return {c : Char} {s : Str} (h : c ≠ '\n') : newlines ('\r' :: c :: s) = '\n' :: newlines (c :: s) := by
  rw [newlines]
  intro r hr
  injection hr with h1 h2
  exact h h1

theorem newlines_end {e : Str} (h : LineEnd e) (r : Str) : ∃ r', newlines (e ++ r) = '\n' :: r' ∧
    ∀ x s, '\n' ∉ x → '\r' ∉ x → (r = x ++ e ++ s → ∃ s', r' = x ++ '\n' :: s') ∧ (r = x → r' = x) := by
  have plain : ∀ x : Str, '\r' ∉ x → newlines x = x := by
    intro x hx
    have := newlines_append hx []
    simpa [newlines] using this
  have nl : ∀ x s : Str, '\r' ∉ x → ∃ s', newlines (x ++ e ++ s) = x ++ '\n' :: s' := by
    intro x s hx
    rw [List.append_assoc, newlines_append hx]
    rcases h with rfl | rfl | rfl
    · exact ⟨newlines s, by simp [newlines]⟩
    · exact ⟨newlines s, by simp [newlines]⟩
    · cases s with
      | nil => exact ⟨[], by simp [newlines]⟩
      | cons c s =>
        by_cases hc : c = '\n'
        · subst hc; exact ⟨newlines s, by simp [newlines]⟩
        · exact ⟨newlines (c :: s), by
            show x ++ newlines ('\r' :: c :: s) = _
            rw [newlines_return hc]⟩
  have go : newlines (e ++ r) = '\n' :: newlines r ∨
      (e = ['\r'] ∧ ∃ s, r = '\n' :: s ∧ newlines (e ++ r) = '\n' :: newlines s) := by
    rcases h with rfl | rfl | rfl
    · exact .inl (by simp [newlines])
    · exact .inl (by simp [newlines])
    · cases r with
      | nil => exact .inl (by simp [newlines])
      | cons c s =>
        by_cases hc : c = '\n'
        · subst hc
          exact .inr ⟨rfl, s, rfl, by simp [newlines]⟩
        · refine .inl ?_
          show newlines ('\r' :: c :: s) = _
          exact newlines_return hc
  rcases go with go | ⟨he, s, hr, go⟩
  · refine ⟨_, go, fun x s hn hx => ⟨?_, ?_⟩⟩
    · rintro rfl; exact nl x s hx
    · rintro rfl; exact plain r hx
  · refine ⟨_, go, fun x s' hn hx => ⟨?_, ?_⟩⟩
    · intro h'
      cases x with
      | nil => rw [hr, he] at h'; cases h'
      | cons c x => rw [hr] at h'; injection h' with h1 h2; subst h1; simp at hn
    · intro h'
      rw [← h', hr] at hn; simp at hn

theorem firstLine_append (a r : Str) (ha : '\n' ∉ a) : firstLine (a ++ '\n' :: r) = (a, r) := by
  have h : ∀ c ∈ a, decide (c ≠ '\n') = true := by
    intro c hc
    simp only [decide_eq_true_eq]
    rintro rfl; exact ha hc
  unfold firstLine
  rw [List.takeWhile_append_of_pos h, List.dropWhile_append_of_pos h]
  simp

theorem firstLine_all (a : Str) (ha : '\n' ∉ a) : firstLine a = (a, []) := by
  have h : ∀ c ∈ a, decide (c ≠ '\n') = true := by
    intro c hc
    simp only [decide_eq_true_eq]
    rintro rfl; exact ha hc
  have h1 := List.takeWhile_append_of_pos (l₂ := []) h
  have h2 := List.dropWhile_append_of_pos (l₂ := []) h
  simp only [List.append_nil, List.takeWhile_nil, List.dropWhile_nil] at h1 h2
  unfold firstLine
  rw [h1, h2]; rfl

/-- The user name and the password of a text of which the first two lines are `a` and `b`. -/
theorem readAuth_lines (u : UniTable) {a b e rest t : Str} (ha : '\n' ∉ a) (ha' : '\r' ∉ a) (hb : '\n' ∉ b) (hb' : '\r' ∉ b)
    (he : LineEnd e) (ht : t = a ++ e ++ b ∨ t = a ++ e ++ b ++ e ++ rest) :
    readAuth u (newlines t) = (u.strip a, u.strip b) := by
  obtain ⟨r, hr, hr'⟩ : ∃ r, t = a ++ (e ++ r) ∧ (r = b ∨ r = b ++ e ++ rest) := by
    rcases ht with rfl | rfl
    · exact ⟨b, by simp, .inl rfl⟩
    · exact ⟨b ++ e ++ rest, by simp, .inr rfl⟩
  obtain ⟨r', h1, h2⟩ := newlines_end he r
  have ht : newlines t = a ++ '\n' :: r' := by rw [hr, newlines_append ha', h1]
  have hb2 : (firstLine r').1 = b := by
    rcases hr' with h | h
    · rw [(h2 b [] hb hb').2 h, firstLine_all b hb]
    · obtain ⟨s, hs⟩ := (h2 b rest hb hb').1 h
      rw [hs, firstLine_append b s hb]
  obtain ⟨c1, c2⟩ := C72_auth u (newlines t)
  rw [ht, firstLine_append a r' ha] at c1 c2
  rw [hb2] at c2
  rw [ht]
  exact Prod.ext (stripped_unique _ c1 (strip_stripped u a)) (stripped_unique _ c2 (strip_stripped u b))

theorem strip_self {u : UniTable} {s : Str} (h : Stripped u.isSpace s s) : u.strip s = s :=
  stripped_unique _ (strip_stripped u s) h

/-! ## Encodings -/

/-- The claim: a file that says a user name and a password gives them, whatever the
encoding of the locale is. -/
def C136_claim : Prop :=
  ∀ (charset : Charset) (u : UniTable) (user pass : Str) (content : Bytes), Ordinary charset →
    AuthFile u user pass content → readAuthFile charset u content = .ok (user, pass)

theorem readAuthFile_text {charset : Charset} {u : UniTable} {content : Bytes} {t : Str} (h : charset content = some t) :
    readAuthFile charset u content = .ok (readAuth u (newlines t)) := by
  simp only [readAuthFile, fileText, h, Except.map]

/-- C136: where the encoding of the locale is UTF-8, the file gives the user name and the
password that it says. -/
theorem C136_partial (u : UniTable) (user pass : Str) (content : Bytes) (h : AuthFile u user pass content) :
    readAuthFile .utf8 u content = .ok (user, pass) := by
  obtain ⟨⟨a1, a2, a3⟩, ⟨b1, b2, b3⟩, e, rest, he, hc⟩ := h
  obtain ⟨t, ht, hc'⟩ : ∃ t, (t = user ++ e ++ pass ∨ t = user ++ e ++ pass ++ e ++ rest) ∧ content = Json.utf8 t := by
    rcases hc with rfl | rfl
    · exact ⟨_, .inl rfl, rfl⟩
    · exact ⟨_, .inr rfl, rfl⟩
  rw [readAuthFile_text (charset := .utf8) (t := t) ((utf8Text_iff content t).2 hc'), readAuth_lines u a1 a2 b1 b2 he ht, strip_self a3, strip_self b3]

theorem utf8_append (a b : Str) : Json.utf8 (a ++ b) = Json.utf8 a ++ Json.utf8 b := List.flatMap_append

theorem utf8_ascii_char {c : Char} (h : c.toNat < 128) : String.utf8EncodeChar c = [UInt8.ofNat c.toNat] := by
  have hv : c.val.toNat = c.toNat := rfl
  unfold String.utf8EncodeChar
  simp only [hv]
  rw [if_pos (by omega)]

theorem utf8_inj {s t : Str} (h : Json.utf8 s = Json.utf8 t) : s = t := by
  have h1 := (utf8Text_iff (Json.utf8 s) s).2 rfl
  have h2 := (utf8Text_iff (Json.utf8 s) t).2 h
  rw [h1] at h2
  exact Option.some.inj h2

/-- C136: a file all in ASCII gives the user name and the password in every locale. -/
theorem C136_ascii (charset : Charset) (hc : Ordinary charset) (u : UniTable) (user pass : Str) (content : Bytes)
    (h : AuthFile u user pass content) (ha : ∃ t, IsAscii t ∧ content = Json.utf8 t) :
    readAuthFile charset u content = .ok (user, pass) := by
  obtain ⟨t, ht, rfl⟩ := ha
  have h2 := C136_partial u user pass _ h
  rw [readAuthFile_text (charset := .utf8) (t := t) ((utf8Text_iff _ t).2 rfl)] at h2
  rw [readAuthFile_text (hc t ht)]
  exact h2

/-! ## Latin-1 -/

/-- What Latin-1 makes of a text in UTF-8. -/
def misread (s : Str) : Str := (Json.utf8 s).map fun x => Char.ofNat x.toNat

theorem misread_append (a b : Str) : misread (a ++ b) = misread a ++ misread b := by
  unfold misread; rw [utf8_append, List.map_append]

theorem toNat_byte (n : Nat) (h : n < 256) : (Char.ofNat (UInt8.ofNat n).toNat).toNat = n := by
  have : (UInt8.ofNat n).toNat = n := by simp; omega
  rw [this]
  have hv : n.isValidChar := .inl (by omega)
  simp [Char.toNat, Char.ofNat, hv, Char.ofNatAux]

theorem misread_char (c : Char) : (c.toNat < 128 ∧ misread [c] = [c]) ∨
    (128 ≤ c.toNat ∧ ∃ x y r, misread [c] = x :: y :: r ∧ 0xC2 ≤ x.toNat ∧ x.toNat < 0xF8 ∧ 128 ≤ y.toNat ∧ y.toNat < 0xC0 ∧
      (∀ z ∈ r, 128 ≤ z.toNat ∧ z.toNat < 0xC0) ∧
      (c.toNat < 256 → r = [] ∧ x.toNat = 0xC0 + c.toNat / 64 ∧ y.toNat = 128 + c.toNat % 64)) := by
  have hm : misread [c] = (String.utf8EncodeChar c).map fun x => Char.ofNat x.toNat := by
    unfold misread Json.utf8; simp
  rw [hm]
  have hv : c.val.toNat = c.toNat := rfl
  by_cases h : c.toNat < 128
  · left
    refine ⟨h, ?_⟩
    rw [utf8_ascii_char h]
    simp only [List.map_cons, List.map_nil, List.cons.injEq, and_true]
    apply Char.ext
    apply UInt32.toNat_inj.1
    exact toNat_byte c.toNat (by omega)
  · right
    refine ⟨by omega, ?_⟩
    have hval : c.toNat < 0x110000 := by
      rcases c.valid with h | ⟨-, h⟩
      · have : c.toNat < 0xd800 := h
        omega
      · exact h
    unfold String.utf8EncodeChar
    simp only [hv]
    rw [if_neg (by omega)]
    split
    · simp only [List.map_cons, List.map_nil]
      refine ⟨_, _, _, rfl, ?_⟩
      rw [toNat_byte _ (by omega), toNat_byte _ (by omega)]
      refine ⟨by omega, by omega, by omega, by omega, by simp, fun h' => ⟨rfl, by omega, by omega⟩⟩
    · split
      · simp only [List.map_cons, List.map_nil]
        refine ⟨_, _, _, rfl, ?_⟩
        rw [toNat_byte _ (by omega), toNat_byte _ (by omega)]
        refine ⟨by omega, by omega, by omega, by omega, ?_, fun h' => by omega⟩
        intro z hz
        simp only [List.mem_cons, List.not_mem_nil, or_false] at hz
        subst hz
        rw [toNat_byte _ (by omega)]
        omega
      · simp only [List.map_cons, List.map_nil]
        refine ⟨_, _, _, rfl, ?_⟩
        rw [toNat_byte _ (by omega), toNat_byte _ (by omega)]
        refine ⟨by omega, by omega, by omega, by omega, ?_, fun h' => by omega⟩
        intro z hz
        simp only [List.mem_cons, List.not_mem_nil, or_false] at hz
        rcases hz with rfl | rfl <;> rw [toNat_byte _ (by omega)] <;> omega

theorem misread_cons (c : Char) (s : Str) : misread (c :: s) = misread [c] ++ misread s := misread_append [c] s

theorem misread_ascii {s : Str} (h : IsAscii s) : misread s = s := by
  induction s with
  | nil => rfl
  | cons c s ih =>
    rw [misread_cons, ih fun x hx => h x (List.mem_cons_of_mem _ hx)]
    rcases misread_char c with ⟨-, e⟩ | ⟨h1, -⟩
    · rw [e]; rfl
    · exact absurd (h c (List.mem_cons_self ..)) (by omega)

theorem misread_length (s : Str) : s.length ≤ (misread s).length ∧ ((misread s).length = s.length → IsAscii s) := by
  induction s with
  | nil => exact ⟨Nat.le_refl _, fun _ c hc => by cases hc⟩
  | cons c s ih =>
    obtain ⟨ih1, ih2⟩ := ih
    rw [misread_cons, List.length_append, List.length_cons]
    rcases misread_char c with ⟨h1, e⟩ | ⟨h1, x, y, r, e, -⟩
    · rw [e]
      simp only [List.length_cons, List.length_nil]
      refine ⟨by omega, fun h => ?_⟩
      have := ih2 (by omega)
      intro x hx
      rcases List.mem_cons.1 hx with rfl | hx
      · exact h1
      · exact this x hx
    · rw [e]
      simp only [List.length_cons]
      exact ⟨by omega, fun h => by omega⟩

theorem misread_small (s : Str) : ∀ c ∈ misread s, c.toNat < 256 := by
  intro c hc
  obtain ⟨x, -, rfl⟩ := List.mem_map.1 hc
  have := toNat_byte x.toNat x.toNat_lt
  rw [UInt8.ofNat_toNat] at this
  rw [this]
  exact x.toNat_lt

theorem misread_notin (s : Str) (d : Char) (hd : d.toNat < 128) (h : d ∉ s) : d ∉ misread s := by
  induction s with
  | nil => exact h
  | cons c s ih =>
    simp only [List.mem_cons, not_or] at h
    rw [misread_cons]
    intro hm
    rcases List.mem_append.1 hm with hm | hm
    · rcases misread_char c with ⟨-, e⟩ | ⟨-, x, y, r, e, hx, -, hy, -, hr, -⟩
      · rw [e] at hm
        exact h.1 (List.mem_singleton.1 hm)
      · rw [e] at hm
        simp only [List.mem_cons] at hm
        rcases hm with rfl | rfl | hm
        · omega
        · omega
        · have := (hr d hm).1; omega
    · exact ih h.2 hm

/-- The white space among the characters from 128 to 255. -/
def Latin1Space (u : UniTable) : Prop :=
  ∀ c : Char, 128 ≤ c.toNat → c.toNat < 256 → u.isSpace c = true → c.toNat = 0x85 ∨ c.toNat = 0xA0

/-- Only ASCII is read correctly. -/
theorem misread_stripped {u : UniTable} (hu : Latin1Space u) {s : Str} (hs : Stripped u.isSpace s s) :
    u.strip (misread s) = s ↔ IsAscii s := by
  constructor
  · intro h
    obtain ⟨⟨l, r, h1, hl, hr⟩, -, -⟩ := strip_stripped u (misread s)
    rw [h] at h1
    obtain ⟨-, hh, ht⟩ := hs
    have small := misread_small s
    -- nothing is lost in front
    have hl0 : l = [] := by
      cases l with
      | nil => rfl
      | cons a l =>
        exfalso
        have ha := hl a (List.mem_cons_self ..)
        cases s with
        | nil => cases h1
        | cons c s =>
          rw [misread_cons] at h1
          rcases misread_char c with ⟨-, e⟩ | ⟨-, x, y, t, e, hx, hx', -⟩
          · rw [e] at h1
            injection h1 with h1 h2
            rw [hh a (by rw [h1]; rfl)] at ha
            cases ha
          · rw [e] at h1
            injection h1 with h1 h2
            subst h1
            rcases hu x (by omega) (by omega) ha with h | h <;> omega
    subst hl0
    rw [List.nil_append] at h1
    -- the last character
    rcases List.eq_nil_or_concat s with rfl | ⟨a, c, rfl⟩
    · exact fun c hc => by cases hc
    · rw [List.concat_eq_append] at h1 ht small ⊢
      have hlen := (misread_length a)
      rw [misread_append] at h1
      rcases misread_char c with ⟨hc, e⟩ | ⟨hc, x, y, t, e, hx, hx', hy, hy', -, hsmall⟩
      · rw [e] at h1
        have hr0 : r = [] := by
          rcases List.eq_nil_or_concat r with rfl | ⟨b, d, rfl⟩
          · rfl
          · exfalso
            rw [List.concat_eq_append, ← List.append_assoc] at h1
            have := (List.append_inj' h1 rfl).2
            injection this with this
            subst this
            have h2 := hr c (by simp)
            rw [ht c (by simp)] at h2
            cases h2
        subst hr0
        have := congrArg List.length h1
        simp only [List.length_append, List.length_cons, List.length_nil] at this
        have ha := hlen.2 (by omega)
        intro z hz
        rcases List.mem_append.1 hz with hz | hz
        · exact ha z hz
        · rw [List.mem_singleton.1 hz]; exact hc
      · exfalso
        have hc256 : c.toNat < 256 := by
          apply small
          rw [misread_append, h1]
          simp
        obtain ⟨rfl, hx2, hy2⟩ := hsmall hc256
        rw [e] at h1
        rcases List.eq_nil_or_concat r with rfl | ⟨b, d, rfl⟩
        · have := congrArg List.length h1
          simp only [List.length_append, List.length_cons, List.length_nil] at this
          omega
        · rw [List.concat_eq_append] at h1 hr
          have h2 : (misread a ++ [x]) ++ [y] = (a ++ [c] ++ b) ++ [d] := by simpa using h1
          obtain ⟨h3, h4⟩ := List.append_inj' h2 rfl
          injection h4 with h4
          have hb0 : b = [] := by
            rcases List.eq_nil_or_concat b with rfl | ⟨b, d', rfl⟩
            · rfl
            · exfalso
              rw [List.concat_eq_append, ← List.append_assoc] at h3
              have := (List.append_inj' h3 rfl).2
              injection this with this
              subst this
              rcases hu x (by omega) (by omega) (hr x (by simp)) with h | h <;> omega
          subst hb0
          rw [List.append_nil] at h3
          have h5 := (List.append_inj' h3 rfl).2
          injection h5 with h5
          subst h5
          have hys := hr d (by simp)
          rw [← h4] at hys
          rcases hu y (by omega) (by omega) hys with h | h <;> omega
  · intro h
    rw [misread_ascii h, strip_self hs]

/-- C136: where the encoding of the locale is Latin-1, the file gives the user name and
the password that it says if they are in ASCII, and never otherwise. -/
theorem C136_latin1 (u : UniTable) (hu : Latin1Space u) (user pass : Str) (content : Bytes)
    (h : AuthFile u user pass content) :
    readAuthFile .latin1 u content = .ok (user, pass) ↔ IsAscii user ∧ IsAscii pass := by
  obtain ⟨⟨a1, a2, a3⟩, ⟨b1, b2, b3⟩, e, rest, he, hc⟩ := h
  have hea : IsAscii e := by
    rcases he with rfl | rfl | rfl <;> intro c hc <;> simp at hc <;> rcases hc with rfl | rfl <;> decide
  have hm := misread_ascii hea
  have key : ∀ t, content = Json.utf8 t → Charset.latin1 content = some (misread t) := by rintro t rfl; rfl
  have h2 : readAuthFile .latin1 u content = .ok (u.strip (misread user), u.strip (misread pass)) := by
    rcases hc with hc | hc
    · rw [readAuthFile_text (key _ hc)]
      congr 1
      refine readAuth_lines u (e := e) (rest := []) (misread_notin _ _ (by decide) a1) (misread_notin _ _ (by decide) a2)
        (misread_notin _ _ (by decide) b1) (misread_notin _ _ (by decide) b2) he (.inl ?_)
      rw [misread_append, misread_append, hm]
    · rw [readAuthFile_text (key _ hc)]
      congr 1
      refine readAuth_lines u (e := e) (rest := misread rest) (misread_notin _ _ (by decide) a1) (misread_notin _ _ (by decide) a2)
        (misread_notin _ _ (by decide) b1) (misread_notin _ _ (by decide) b2) he (.inr ?_)
      rw [misread_append, misread_append, misread_append, misread_append, hm]
  rw [h2, ← misread_stripped hu a3, ← misread_stripped hu b3, Except.ok.injEq, Prod.mk.injEq]

theorem latin1_ordinary : Ordinary .latin1 := fun _ h => congrArg some (misread_ascii h)

theorem utf8_ordinary : Ordinary .utf8 := fun s _ => (utf8Text_iff _ s).2 rfl

/-- A user name and a password with a letter that is not in ASCII. -/
def umlautFile : Bytes := Json.utf8 "cbus\r\nschlüssel\r\n".toList

theorem umlautFile_says : AuthFile .ascii "cbus".toList "schlüssel".toList umlautFile := by
  refine ⟨⟨by decide, by decide, ⟨[], [], by simp, by simp, by simp⟩, by decide, by decide⟩,
    ⟨by decide, by decide, ⟨[], [], by simp, by simp, by simp⟩, by decide, by decide⟩, ['\r', '\n'], [], .inr (.inl rfl), .inr ?_⟩
  rfl

/-- C136 is false of the code: the file is not read as UTF-8 where the locale has
another encoding. -/
theorem C136_false : ¬ C136_claim := by
  intro h
  have h1 := h .latin1 .ascii _ _ _ latin1_ordinary umlautFile_says
  have hu : Latin1Space .ascii := by
    intro c hc _ hs
    exfalso
    simp only [UniTable.ascii, asciiSpace, Bool.or_eq_true, Bool.and_eq_true, decide_eq_true_eq] at hs
    omega
  have h2 := ((C136_latin1 .ascii hu _ _ _ umlautFile_says).1 h1).2 'ü' (by decide)
  exact absurd h2 (by decide)

example : readAuthFile .utf8 .ascii umlautFile = .ok ("cbus".toList, "schlüssel".toList) :=
  C136_partial _ _ _ _ umlautFile_says

example : readAuthFile .latin1 .ascii umlautFile = .ok ("cbus".toList, "schlÃ¼ssel".toList) := by decide +kernel

example : readAuthFile .latin1 .ascii (Json.utf8 "a b\rc\rthe rest: ü".toList) = .ok ("a b".toList, "c".toList) := by
  decide +kernel

/-! ## The byte order mark -/

/-- C136: the byte order mark with which some editors begin a file in UTF-8 becomes a
part of the user name. -/
theorem C136_mark (u : UniTable) (hu : u.isSpace '\uFEFF' = false) (user pass : Str) (content : Bytes)
    (h : AuthFile u user pass content) :
    readAuthFile .utf8 u ([0xEF, 0xBB, 0xBF] ++ content) = .ok ('\uFEFF' :: user, pass) := by
  have hm : ([0xEF, 0xBB, 0xBF] : Bytes) = Json.utf8 ['\uFEFF'] := by decide +kernel
  obtain ⟨⟨a1, a2, a3⟩, hb, e, rest, he, hc⟩ := h
  apply C136_partial
  refine ⟨⟨by simp [a1], by simp [a2], ⟨[], [], by simp, by simp, by simp⟩, ?_, ?_⟩, hb, e, rest, he, ?_⟩
  · intro c hc; injection hc with hc; rw [← hc]; exact hu
  · intro c hc
    rcases List.eq_nil_or_concat user with rfl | ⟨a, d, rfl⟩
    · injection hc with hc; rw [← hc]; exact hu
    · apply a3.2.2
      rw [List.concat_eq_append] at hc ⊢
      simpa [List.getLast?_cons] using hc
  · rw [hm]
    rcases hc with rfl | rfl
    · left; rw [← utf8_append]; rfl
    · right; rw [← utf8_append]; rfl

example : readAuthFile .utf8 .ascii ([0xEF, 0xBB, 0xBF] ++ umlautFile) =
    .ok ("\uFEFFcbus".toList, "schlüssel".toList) := C136_mark _ (by decide) _ _ _ umlautFile_says

/-! ## The daemon -/

/-- C136: the daemon that gets as far as the broker logs in with what the file says. -/
theorem C136_daemon (env : Cbz.Env) (o : Daemon.Options) (user pass : Str) (content : Bytes)
    (h : AuthFile env.uni user pass content) (a : Str) (p k : Int)
    (hb : .connectBroker a p k ∈ (mainFile .utf8 env o content).1) (x y : Str) :
    .credentials x y ∈ (mainFile .utf8 env o content).1 ↔ x = user ∧ y = pass := by
  have h1 := C136_partial _ _ _ _ h
  unfold readAuthFile at h1
  cases ht : fileText .utf8 content with
  | error e => rw [ht] at h1; cases h1
  | ok t =>
    rw [ht] at h1
    have h2 : readAuth env.uni t = (user, pass) := Except.ok.inj h1
    have hm : mainFile .utf8 env o content = main env { o with auth := some t } := by
      unfold mainFile; rw [ht]
    rw [hm] at hb ⊢
    obtain ⟨before, e, -, -, -, -, -, -, hc⟩ := C82_broker _ _ _ _ _ hb
    rw [e]
    have := hc x y
    simp only [Option.some.injEq, exists_eq_left', h2, Prod.mk.injEq] at this
    rw [← this]
    simp

/-- C136: bytes that are not a text in the encoding of the locale end the daemon with
`UnicodeDecodeError`. It has connected to the PCI by then, and never to the broker. -/
theorem C136_undecodable (charset : Charset) (env : Cbz.Env) (o : Daemon.Options) (content : Bytes) (h : charset content = none) :
    (∀ hd, (mainFile charset env o content).2 ≠ .running hd) ∧
    (∀ a p k, .connectBroker a p k ∉ (mainFile charset env o content).1) ∧
    ∀ hd, (main env { o with auth := none }).2 = .running hd →
      ∃ pci, connectPci env o = .ok pci ∧ mainFile charset env o content = ([pci], .raised .valueError) := by
  have ht : fileText charset content = .error .valueError := by unfold fileText; rw [h]
  unfold mainFile
  rw [ht]
  simp only
  rcases main_cases env { o with auth := none } with ⟨h1, h2⟩ | ⟨act, labels, hp, -, -, hm⟩
  · obtain ⟨l, r⟩ : ∃ x, main env { o with auth := none } = x := ⟨_, rfl⟩
    rw [r] at h1 h2 ⊢
    obtain ⟨acts, e⟩ := l
    simp only at h1 h2
    subst h1
    exact ⟨fun hd => h2 hd, by simp, fun hd he => absurd he (h2 hd)⟩
  · rw [hm]
    have hpci : connectPci env o = .ok act := hp
    refine ⟨fun hd => by simp, ?_, fun hd _ => ⟨act, hpci, rfl⟩⟩
    intro a p k hmem
    simp only [List.mem_singleton] at hmem
    subst hmem
    unfold connectPci at hpci
    split at hpci
    · cases hpci
    · split at hpci
      · split at hpci
        · split at hpci <;> cases hpci
        · cases hpci
      · cases hpci

example (x y : Str) : .credentials x y ∈ (mainFile .utf8 .ascii {
    brokerAddress := "broker".toList
    disableTls := true
    serial := some "/dev/ttyUSB0".toList } umlautFile).1 ↔ x = "cbus".toList ∧ y = "schlüssel".toList :=
  C136_daemon .ascii _ _ _ _ umlautFile_says "broker".toList 1883 60 (by decide +kernel) x y

example : mainFile .utf8 .ascii { brokerAddress := "broker".toList, serial := some "/dev/ttyUSB0".toList } [0x61, 0xFC] =
    ([.openSerial "/dev/ttyUSB0".toList], .raised .valueError) := by decide +kernel

end CBus.Props
