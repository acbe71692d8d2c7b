import Verif.Props.Url

/-! # C143, addresses with parameters

`PlainRef` of C143 leaves out the references with a semicolon. What follows is what comes of an address with parameters after
its last segment: the whole address is requested, and whether it is requested is decided by what is before the semicolon. -/

namespace CBus.Props
open CBus CBus.Spec CBus.Url

theorem lastPart_append (a b : Str) (hb : '/' ∉ b) : Tools.lastPart (a ++ '/' :: b) = b := by
  unfold Tools.lastPart
  rw [List.reverse_append, List.reverse_cons, List.append_assoc, List.takeWhile_append_of_pos]
  · simp
  · intro c hc
    simp only [List.mem_reverse] at hc
    exact decide_eq_true (fun e => hb (e ▸ hc))

/-- The parameters are what is after the first semicolon of the last segment. -/
theorem splitParams_at (a n q : Str) (h1 : '/' ∉ n) (h2 : '/' ∉ q) (h3 : ';' ∉ n) :
    splitParams (a ++ '/' :: (n ++ ';' :: q)) = (a ++ '/' :: n, q) := by
  have hl : '/' ∉ n ++ ';' :: q := by
    rw [List.mem_append, List.mem_cons]
    rintro (h | h | h)
    · exact h1 h
    · revert h; decide
    · exact h2 h
  unfold splitParams
  rw [lastPart_append _ _ hl]
  simp only
  rw [cut_mem _ _ _ h3]
  have hlen : (a ++ '/' :: (n ++ ';' :: q)).length - (n ++ ';' :: q).length = (a ++ ['/']).length := by
    simp only [List.length_append, List.length_cons, List.length_nil]
    omega
  rw [hlen, show a ++ '/' :: (n ++ ';' :: q) = (a ++ ['/']) ++ (n ++ ';' :: q) by simp, List.take_left]
  simp

/-- An address of a web server with parameters. -/
structure WithParams (r : Ref) (parents name params : Str) : Prop where
  ok : r.Ok
  scheme : r.scheme.map (·.map Char.toLower) = some "http".toList ∨ r.scheme.map (·.map Char.toLower) = some "https".toList
  authority : ∃ a, r.authority = some a ∧ a ≠ [] ∧ AuthorityFine a
  path : r.path = parents ++ '/' :: (name ++ ';' :: params)
  segment : '/' ∉ name ∧ '/' ∉ params ∧ ';' ∉ name
  given : params ≠ []
  query : r.query ≠ some []
  fragment : r.fragment ≠ some []

theorem urlparse_params (e : Url.Env) (r : Ref) (parents name params : Str) (h : WithParams r parents name params) (sch : Str) :
    urlparse e r.text sch = .ok ⟨⟨(r.scheme.map (·.map Char.toLower)).getD [], r.authority.getD [], parents ++ '/' :: name,
      r.query.getD [], r.fragment.getD []⟩, params⟩ := by
  obtain ⟨a, ha, ha1, ha2⟩ := h.authority
  have hsch : (r.scheme.map (·.map Char.toLower)).getD sch = (r.scheme.map (·.map Char.toLower)).getD [] := by
    rcases h.scheme with e | e <;> rw [e] <;> rfl
  have hu : (r.scheme.map (·.map Char.toLower)).getD [] ∈ usesParams := by
    rcases h.scheme with e | e <;> rw [e] <;> decide +kernel
  unfold urlparse
  rw [urlsplit_text e r h.ok (fun _ => .inl (by rw [ha]; simp)) (by intro x hx; rw [ha] at hx; cases hx; exact ha2) sch]
  simp only [hsch]
  rw [if_pos ⟨hu, by rw [h.path]; simp⟩, h.path, splitParams_at _ _ _ h.segment.1 h.segment.2.1 h.segment.2.2]

theorem unparse_params (e : Url.Env) (r : Ref) (parents name params : Str) (h : WithParams r parents name params) :
    urlunparse ⟨⟨(r.scheme.map (·.map Char.toLower)).getD [], r.authority.getD [], parents ++ '/' :: name,
      r.query.getD [], r.fragment.getD []⟩, params⟩ = (lowered r).text := by
  obtain ⟨a, ha, ha1, -⟩ := h.authority
  have hp : (parents ++ '/' :: name) ++ ';' :: params = r.path := by rw [h.path]; simp
  have h1 : ∀ s : Split, urlunparse ⟨s, params⟩ = urlunparse ⟨{ s with path := s.path ++ ';' :: params }, []⟩ := by
    intro s
    unfold urlunparse
    simp only
    rw [if_pos h.given, if_neg (by simp)]
  rw [h1]
  simp only
  rw [hp]
  have hs : (r.scheme.map (·.map Char.toLower)).getD [] ≠ [] := by
    rcases h.scheme with e | e <;> rw [e] <;> decide
  rw [unparse_text _ _ _ _ _ hs (by rw [ha]; exact ha1), givenText_getD _ h.query, givenText_getD _ h.fragment]
  rw [withSlash_head _ (h.ok.after (by rw [ha]; simp))]
  unfold lowered
  rw [ha]
  rcases h.scheme with e | e <;> rw [e] <;> rfl

theorem lowered_params {r : Ref} {parents name params : Str} (h : WithParams r parents name params) :
    WithParams (lowered r) parents name params ∧ lowered (lowered r) = lowered r := by
  have hm : ∀ s : Str, (s.map Char.toLower).map Char.toLower = s.map Char.toLower := by
    intro s
    rw [List.map_map]
    refine List.map_congr_left fun c _ => ?_
    show c.toLower.toLower = c.toLower
    unfold Char.toLower
    split
    · rename_i h1
      rw [dif_neg]
      intro h2
      revert h1 h2
      simp only [UInt32.le_iff_toNat_le]
      intro h1 h2
      simp only [UInt32.toNat_add] at h2
      have : ('a'.val - 'A'.val).toNat = 32 := by decide
      have : 'Z'.val.toNat = 90 := by decide
      have : 'A'.val.toNat = 65 := by decide
      omega
    · rfl
  have hl : (lowered r).scheme.map (·.map Char.toLower) = r.scheme.map (·.map Char.toLower) := by
    unfold lowered
    simp only
    cases r.scheme with
    | none => rfl
    | some s => simp [hm]
  refine ⟨⟨⟨?_, h.ok.authority, h.ok.path, h.ok.after, h.ok.alone, ?_, h.ok.query⟩, hl ▸ h.scheme, h.authority, h.path, h.segment, h.given,
    h.query, h.fragment⟩, ?_⟩
  · intro s hs
    have : some s = some "http".toList ∨ some s = some "https".toList := by
      rw [← hs]; exact h.scheme
    rcases this with e | e <;> cases e
    · exact ⟨'h', "ttp".toList, rfl, by decide, by decide⟩
    · exact ⟨'h', "ttps".toList, rfl, by decide, by decide⟩
  · intro hn
    rcases h.scheme with e | e <;> (rw [show r.scheme.map (·.map Char.toLower) = (lowered r).scheme from rfl, hn] at e; cases e)
  · have : (lowered (lowered r)).scheme = (lowered r).scheme := hl
    calc lowered (lowered r) = { lowered r with scheme := (lowered (lowered r)).scheme } := rfl
      _ = lowered r := by rw [this]

/-- What comes of an address with parameters. -/
theorem C143_parameters (e : Url.Env) (r : Ref) (parents name params : Str) (h : WithParams r parents name params) :
    ∃ p, hrefLink e (some r.text) = .ok p ∧ some p.scheme = r.scheme.map (·.map Char.toLower) ∧ some p.netloc = r.authority ∧
      p.path = parents ++ '/' :: name ∧ p.params = params ∧ urlunparse p = (lowered r).text := by
  obtain ⟨a, ha, ha1, ha2⟩ := h.authority
  have hbase : urlparse e indexUrl [] = .ok ⟨⟨"https".toList, "updates.clipsal.com".toList, indexRef.path, [], []⟩, []⟩ := by
    rw [← indexRef_text, urlparse_text e indexRef indexRef_ok (fun _ => .inl (by decide)) (by rintro a h; cases h; exact fine_host)
      (by decide +kernel)]
    rfl
  have hne : indexUrl ≠ [] := by decide +kernel
  have h0 : r.text ≠ [] := by
    intro h0
    rw [text_eq, ha] at h0
    simp [authorityText] at h0
  have hself := urlparse_params e r parents name params h
  have hun := unparse_params e r parents name params h
  unfold hrefLink
  simp only [Option.getD_some]
  rcases h.scheme with hs | hs
  · rw [urljoin_other e indexUrl r.text _ _ hne h0 hbase (hself _) (by
      show (r.scheme.map (·.map Char.toLower)).getD [] ≠ "https".toList
      rw [hs]; decide)]
    simp only
    rw [hself]
    exact ⟨_, rfl, by rw [hs]; rfl, by rw [ha]; rfl, rfl, rfl, hun⟩
  · rw [urljoin_netloc e indexUrl r.text _ _ hne h0 hbase (hself _) (by rw [hs]; rfl) (by decide +kernel) (by decide +kernel)
      (by rw [ha]; exact ha1)]
    simp only
    rw [hun]
    obtain ⟨h1, h2⟩ := lowered_params h
    rw [urlparse_params e _ _ _ _ h1]
    refine ⟨_, rfl, ?_, ?_, rfl, rfl, ?_⟩
    · show some (((lowered r).scheme.map (·.map Char.toLower)).getD []) = _
      rw [show (lowered r).scheme.map (·.map Char.toLower) = (lowered (lowered r)).scheme from rfl, h2]
      show some ((r.scheme.map (·.map Char.toLower)).getD []) = _
      rw [hs]; rfl
    · show some (r.authority.getD []) = _
      rw [ha]; rfl
    · rw [unparse_params e _ _ _ _ h1, h2]

/-- It is requested exactly if it is on the host of the index and the part before the semicolon is the name of a PDF file. -/
theorem C143_parameters_followed (e : Url.Env) (r : Ref) (parents name params : Str) (h : WithParams r parents name params)
    (tag : Str × List (Str × Option Str)) (ht : LinkTag e tag r) (links : List Parsed) :
    ∃ p, urlunparse p = (lowered r).text ∧ startTag e links tag.1 tag.2 =
      .ok (if r.authority = some "updates.clipsal.com".toList ∧ ".pdf".toList <:+ parents ++ '/' :: name then links ++ [p] else links) := by
  obtain ⟨p, h1, h2, h3, h4, h5, h6⟩ := C143_parameters e r parents name params h
  obtain ⟨hta, k, hk⟩ := ht
  refine ⟨p, h6, ?_⟩
  have hiff : ((p.scheme = "http".toList ∨ p.scheme = "https".toList) ∧ p.netloc = indexHost ∧
      Str.endsWith p.path ".pdf".toList = true) ↔
      (r.authority = some "updates.clipsal.com".toList ∧ ".pdf".toList <:+ parents ++ '/' :: name) := by
    rw [← h3, ← h4]
    constructor
    · rintro ⟨-, e1, e2⟩
      exact ⟨congrArg some e1, List.isSuffixOf_iff_suffix.1 e2⟩
    · rintro ⟨e1, e2⟩
      refine ⟨?_, Option.some.inj e1, List.isSuffixOf_iff_suffix.2 e2⟩
      rcases h.scheme with e | e
      · exact .inl (Option.some.inj (h2.trans e))
      · exact .inr (Option.some.inj (h2.trans e))
  unfold startTag
  rw [if_pos hta, hk]
  simp only [h1]
  by_cases hd : r.authority = some "updates.clipsal.com".toList ∧ ".pdf".toList <:+ parents ++ '/' :: name
  · rw [if_pos (hiff.2 hd), if_pos hd]
  · rw [if_neg (fun x => hd (hiff.1 x)), if_neg hd]

/-- An address with parameters of which C143 is about, and what is requested: the first is no PDF file to the standard, the
second is one. -/
example : WithParams ⟨some "HTTP".toList, some "updates.clipsal.com".toList, "/a;b/c.pdf;v=1;w".toList, none, none⟩
    "/a;b".toList "c.pdf".toList "v=1;w".toList := by
  refine ⟨⟨?_, ?_, by decide, ?_, ?_, ?_, ?_⟩, .inl (by decide +kernel), ⟨_, rfl, by decide, by decide, by decide⟩, by decide +kernel,
    by decide, by decide, by decide, by decide⟩
  · rintro s h; cases h; exact ⟨'H', "TTP".toList, rfl, by decide, by decide⟩
  · rintro s h; cases h; decide
  · intro _; exact .inr rfl
  · rintro h; cases h
  · rintro h; cases h
  · rintro s h; cases h

example : ((pageLinks asciiEnv [] [anchor "HTTP://updates.clipsal.com/a;b/c.pdf;v=1;w", anchor "https://updates.clipsal.com/c;v.pdf"]).toOption.map
    (·.map fun p => String.ofList (urlunparse p))) = some ["http://updates.clipsal.com/a;b/c.pdf;v=1;w"] := by decide +kernel

end CBus.Props
