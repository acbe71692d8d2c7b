import Verif.Lemmas.UrlText
import Verif.Props.Downloads

/-! # C143, C144: the links of fetch_protocol_docs -/

namespace CBus.Props
open CBus CBus.Spec CBus.Url

/-- The address of the index page. -/
def indexRef : Ref :=
  ⟨some "https".toList, some "updates.clipsal.com".toList,
   "/ClipsalSoftwareDownload/DL/downloads/OpenCBus/OpenCBusProtocolDownloads.html".toList, none, none⟩

theorem indexRef_text : indexRef.text = indexUrl := by decide +kernel

/-- A document of the server: over HTTP or HTTPS (whichever case), on the host of the index, and a PDF file. -/
def Document (t : Ref) : Prop :=
  (t.scheme.map (·.map Char.toLower) = some "http".toList ∨ t.scheme.map (·.map Char.toLower) = some "https".toList) ∧
  t.authority = some "updates.clipsal.com".toList ∧ ".pdf".toList <:+ t.path

instance (t : Ref) : Decidable (Document t) := inferInstanceAs (Decidable (_ ∧ _ ∧ _))

/-- The address with its scheme in small letters. -/
def lowered (t : Ref) : Ref := { t with scheme := t.scheme.map (·.map Char.toLower) }

/-- A tag with a reference. -/
def LinkTag (e : Url.Env) (tag : Str × List (Str × Option Str)) (r : Ref) : Prop :=
  e.lower tag.1 = "a".toList ∧ ∃ k, (tag.2.find? fun kv => e.lower kv.1 = "href".toList) = some (k, some r.text)

/-- The claim: of every page, the addresses that are requested are those of the documents that
the references refer to, in their order. -/
def C143_claim : Prop :=
  ∀ (e : Url.Env) (tagOf : Ref → Str × List (Str × Option Str)) (refs : List Ref),
    (∀ r ∈ refs, r.Ok ∧ LinkTag e (tagOf r) r) →
    ∃ links, pageLinks e [] (refs.map tagOf) = .ok links ∧
      links.map urlunparse = ((refs.map (resolve indexRef)).filter fun t => Document t).map fun t => (lowered t).text

/-- What is left out: parameters, two slashes in a row, empty components, `https:` without an
authority, `x:123`, dots in a reference with an authority, and authorities with single brackets or with characters that are not
ASCII. -/
structure PlainRef (r : Ref) : Prop where
  params : ';' ∉ r.path
  slashes : ¬ ['/', '/'] <:+: r.path
  query : r.query ≠ some []
  fragment : r.fragment ≠ some []
  bare : ∀ s, r.scheme = some s → r.authority = none →
    s.map Char.toLower ≠ "https".toList ∧ (r.path = [] ∨ ∃ c ∈ r.path, c.isDigit = false)
  authority : ∀ a, r.authority = some a → a ≠ [] ∧ ('[' ∈ a ↔ ']' ∈ a) ∧ (∀ c ∈ a, c.toNat < 128) ∧ removeDots r.path = r.path

/-- A component of which nothing is there is left out. -/
def givenText (s : Str) : Option Str := if s = [] then none else some s

theorem givenText_getD (x : Option Str) (h : x ≠ some []) : givenText (x.getD []) = x := by
  cases x with
  | none => rfl
  | some s =>
    have : s ≠ [] := fun e => h (by rw [e])
    simp [givenText, this]

theorem getD_givenText (s : Str) : (givenText s).getD [] = s := by
  unfold givenText
  split
  · rename_i h; rw [h]; rfl
  · rfl

theorem unparse_text (s a p q f : Str) (hs : s ≠ []) (ha : a ≠ []) :
    urlunparse ⟨⟨s, a, p, q, f⟩, []⟩ = (Ref.mk (some s) (some a) (withSlash p) (givenText q) (givenText f)).text := by
  unfold urlunparse urlunsplit Ref.text givenText withSlash
  simp only [ne_eq, not_true_eq_false, if_false, hs, ha, not_false_eq_true, true_or, if_true]
  by_cases hq : q = [] <;> by_cases hf : f = [] <;> simp [hq, hf]

theorem indexRef_ok : indexRef.Ok where
  scheme := by
    rintro s h
    cases h
    refine ⟨'h', "ttps".toList, rfl, by decide, by decide⟩
  authority := by
    rintro a h
    cases h
    decide
  path := by decide +kernel
  after _ := .inr (by decide +kernel)
  alone h := by cases h
  first h := by cases h
  query := by rintro q h; cases h

/-- What comes of a reference. -/
structure Leads (p : Parsed) (t : Ref) : Prop where
  params : p.params = []
  scheme : some p.scheme = t.scheme.map (·.map Char.toLower)
  netloc : p.netloc = t.authority.getD []
  query : p.query = t.query.getD []
  fragment : p.fragment = t.fragment.getD []
  path : t.authority ≠ none → p.path = t.path
  slash : t.authority ≠ none → withSlash p.path = p.path

theorem withSlash_twice (p : Str) : withSlash (withSlash p) = withSlash p := by
  unfold withSlash
  by_cases h1 : p = []
  · simp [h1]
  · by_cases h2 : p.head? = some '/'
    · simp [h2]
    · simp [h1, h2]

theorem fine_host : AuthorityFine "updates.clipsal.com".toList := by
  constructor
  · decide
  · decide

theorem withSlash_head (p : Str) (h : p = [] ∨ p.head? = some '/') : withSlash p = p := by
  unfold withSlash
  rw [if_neg]
  rintro ⟨h1, h2⟩
  rcases h with h | h
  · exact h1 h
  · exact h2 h

/-- The answer of `urljoin` is read again. -/
theorem reparse (e : Url.Env) (a p q f : Str) (ha : a ≠ []) (hac : ∀ c ∈ a, c ≠ '/' ∧ c ≠ '?' ∧ c ≠ '#') (haf : AuthorityFine a)
    (hp : ∀ c ∈ p, c ≠ '?' ∧ c ≠ '#' ∧ c ≠ ';') (hq : '#' ∉ q) :
    urlparse e (urlunparse ⟨⟨"https".toList, a, p, q, f⟩, []⟩) [] = .ok ⟨⟨"https".toList, a, withSlash p, q, f⟩, []⟩ := by
  rw [unparse_text _ _ _ _ _ (by decide) ha]
  have hw : ∀ c ∈ withSlash p, c ≠ '?' ∧ c ≠ '#' ∧ c ≠ ';' := by
    intro c hc
    unfold withSlash at hc
    split at hc
    · rcases List.mem_cons.1 hc with rfl | hc
      · decide
      · exact hp c hc
    · exact hp c hc
  have hok : (Ref.mk (some "https".toList) (some a) (withSlash p) (givenText q) (givenText f)).Ok := by
    refine ⟨?_, ?_, ?_, ?_, ?_, ?_, ?_⟩
    · rintro s h
      cases h
      exact ⟨'h', "ttps".toList, rfl, by decide, by decide⟩
    · rintro x h
      cases h
      exact hac
    · exact fun c hc => ⟨(hw c hc).1, (hw c hc).2.1⟩
    · intro _
      show withSlash p = [] ∨ (withSlash p).head? = some '/'
      unfold withSlash
      by_cases h1 : p = []
      · simp [h1]
      · by_cases h2 : p.head? = some '/'
        · simp [h2]
        · simp [h1, h2]
    · intro h; cases h
    · intro h; cases h
    · intro x h
      unfold givenText at h
      simp only at h
      split at h
      · cases h
      · cases h; exact hq
  rw [urlparse_text e _ hok (fun _ => .inl (by simp)) (by rintro x h; cases h; exact haf) (fun h => (hw _ h).2.2 rfl)]
  simp only [Option.map_some, Option.getD_some, getD_givenText]
  rfl

theorem noDouble_of {p : Str} (h : ¬ ['/', '/'] <:+: p) : NoDouble p := h

theorem mem_flat {c : Char} {l : List Str} : c ∈ flat l ↔ (c = '/' ∧ l ≠ []) ∨ ∃ s ∈ l, c ∈ s := by
  unfold flat
  rw [List.mem_flatMap]
  constructor
  · rintro ⟨s, h1, h2⟩
    rcases List.mem_cons.1 h2 with rfl | h2
    · exact .inl ⟨rfl, List.ne_nil_of_mem h1⟩
    · exact .inr ⟨s, h1, h2⟩
  · rintro (⟨rfl, h⟩ | ⟨s, h1, h2⟩)
    · obtain ⟨s, l', rfl⟩ := List.exists_cons_of_ne_nil h
      exact ⟨s, List.mem_cons_self, List.mem_cons_self⟩
    · exact ⟨s, h1, List.mem_cons_of_mem _ h2⟩

theorem removeDots_mem {segs : List Str} (hs : NoSlash segs) {c : Char} (h : c ∈ removeDots (flat segs)) :
    c = '/' ∨ c ∈ flat segs := by
  rw [removeDots_flat _ hs, mem_flat] at h
  rcases h with ⟨rfl, -⟩ | ⟨s, h1, h2⟩
  · exact .inl rfl
  · rcases stackGo_mem segs [] s h1 with rfl | h1 | h1
    · cases h2
    · cases h1
    · exact .inr (mem_flat.2 (.inr ⟨s, h1, h2⟩))

def indexDirs : List Str := ["ClipsalSoftwareDownload", "DL", "downloads", "OpenCBus"].map String.toList

theorem dirs_noSlash : ∀ s ∈ indexDirs, '/' ∉ s := by decide +kernel
theorem dirs_ne : ∀ s ∈ indexDirs, s ≠ [] := by decide +kernel
theorem base_chars : ∀ c ∈ (indexRef.path.reverse.dropWhile (· ≠ '/')).reverse, c ≠ '?' ∧ c ≠ '#' ∧ c ≠ ';' := by
  decide +kernel

/-- The segments of a path that is resolved, and what it is resolved to. -/
theorem resolve_segs (path : Str) (hne : path ≠ []) (hd : NoDouble path) :
    ∃ segs, segs ≠ [] ∧ NoSlash segs ∧ Full segs ∧ segmentsOf indexRef.path path = [] :: segs ∧
      flat segs = if path.head? = some '/' then path else merge indexRef.path path := by
  by_cases hh : path.head? = some '/'
  · obtain ⟨p, rfl⟩ : ∃ p, path = '/' :: p := by
      cases path with
      | nil => cases hh
      | cons c p => simp at hh; exact ⟨p, by rw [hh]⟩
    refine ⟨splitOn '/' p, splitOn_ne_nil _ _, noSlash_splitOn p, ?_, ?_, ?_⟩
    · have := (splitOn_full ('/' :: p) hd).1
      rwa [splitOn_cons_sep] at this
    · unfold segmentsOf
      rw [if_pos hh, splitOn_cons_sep]
    · rw [if_pos hh, flat_splitOn]
  · have hfull := (splitOn_full path hd).2 hh
    have hne' := splitOn_ne_nil '/' path
    refine ⟨indexDirs ++ splitOn '/' path, by simp [indexDirs], ?_, ?_, ?_, ?_⟩
    · intro s hs
      rcases List.mem_append.1 hs with hs | hs
      · exact dirs_noSlash s hs
      · exact noSlash_splitOn path s hs
    · intro s hs
      rw [List.dropLast_append_of_ne_nil hne'] at hs
      rcases List.mem_append.1 hs with hs | hs
      · exact dirs_ne s hs
      · exact hfull s hs
    · unfold segmentsOf
      rw [if_neg hh]
      have hb : splitOn '/' indexRef.path = [] :: indexDirs ++ ["OpenCBusProtocolDownloads.html".toList] := by decide +kernel
      simp only [hb]
      rw [if_pos (by rw [List.getLast?_concat]; decide), List.dropLast_concat, List.cons_append]
      show [] :: ((indexDirs ++ splitOn '/' path).dropLast.filter (· ≠ []) ++ (indexDirs ++ splitOn '/' path).getLast?.toList) = _
      rw [List.dropLast_append_of_ne_nil hne', List.getLast?_append, List.filter_append]
      rw [List.filter_eq_self.2 (fun s hs => decide_eq_true (dirs_ne s hs))]
      rw [List.filter_eq_self.2 (fun s hs => decide_eq_true (hfull s hs)), List.append_assoc]
      congr 2
      rw [List.getLast?_eq_some_getLast hne', Option.some_or]
      exact List.dropLast_concat_getLast hne'
    · rw [if_neg hh, flat_append, flat_splitOn]
      have hm : merge indexRef.path path = flat indexDirs ++ ['/'] ++ path := by
        have h1 : (indexRef.path.reverse.dropWhile (· ≠ '/')).reverse = flat indexDirs ++ ['/'] := by decide +kernel
        unfold merge
        rw [if_neg (by decide +kernel), h1]
      rw [hm]
      simp

theorem resolvePath_eq (path : Str) (hne : path ≠ []) (hd : NoDouble path) (hc : ∀ c ∈ path, c ≠ '?' ∧ c ≠ '#' ∧ c ≠ ';') :
    withSlash (resolvePath indexRef.path path) =
      removeDots (if path.head? = some '/' then path else merge indexRef.path path) ∧
    ∀ c ∈ resolvePath indexRef.path path, c ≠ '?' ∧ c ≠ '#' ∧ c ≠ ';' := by
  obtain ⟨segs, h1, h2, h3, h4, h5⟩ := resolve_segs path hne hd
  have hw : withSlash (resolvePath indexRef.path path) = removeDots (flat segs) := resolved_path segs h1 h2 h3 _ h4
  rw [← h5]
  refine ⟨hw, ?_⟩
  intro c hm
  have hm' : c ∈ withSlash (resolvePath indexRef.path path) := by
    unfold withSlash
    split
    · exact List.mem_cons_of_mem _ hm
    · exact hm
  rw [hw] at hm'
  rcases removeDots_mem h2 hm' with rfl | h
  · decide
  · rw [h5] at h
    split at h
    · exact hc c h
    · unfold merge at h
      rw [if_neg (by decide +kernel)] at h
      rcases List.mem_append.1 h with h | h
      · exact base_chars c h
      · exact hc c h

theorem urljoin_other (e : Url.Env) (base url : Str) (b r : Parsed) (h0 : base ≠ []) (h1 : url ≠ [])
    (hb : urlparse e base [] = .ok b) (hr : urlparse e url b.scheme = .ok r) (h : r.scheme ≠ b.scheme) :
    urljoin e base url = .ok url := by
  unfold urljoin
  rw [if_neg h0, if_neg h1, hb]
  simp only [hr]
  rw [if_pos (.inl h)]

theorem urljoin_netloc (e : Url.Env) (base url : Str) (b r : Parsed) (h0 : base ≠ []) (h1 : url ≠ [])
    (hb : urlparse e base [] = .ok b) (hr : urlparse e url b.scheme = .ok r) (h : r.scheme = b.scheme)
    (hrel : b.scheme ∈ usesRelative) (hnet : b.scheme ∈ usesNetloc) (hn : r.netloc ≠ []) :
    urljoin e base url = .ok (urlunparse r) := by
  unfold urljoin
  rw [if_neg h0, if_neg h1, hb]
  simp only [hr]
  rw [if_neg (by rw [h]; exact fun h => h.elim (fun h => h rfl) (fun h => h hrel)), if_pos ⟨by rw [h]; exact hnet, hn⟩]

theorem urljoin_empty (e : Url.Env) (base url : Str) (bs bn bp bq bf bpar q f : Str) (h0 : base ≠ []) (h1 : url ≠ [])
    (hb : urlparse e base [] = .ok ⟨⟨bs, bn, bp, bq, bf⟩, bpar⟩) (hr : urlparse e url bs = .ok ⟨⟨bs, [], [], q, f⟩, []⟩)
    (hrel : bs ∈ usesRelative) (hnet : bs ∈ usesNetloc) :
    urljoin e base url = .ok (urlunparse ⟨⟨bs, bn, bp, if q = [] then bq else q, f⟩, bpar⟩) := by
  unfold urljoin
  rw [if_neg h0, if_neg h1, hb]
  simp only [hr]
  rw [if_neg (fun h => h.elim (fun h => h rfl) (fun h => h hrel)), if_neg (fun h => h.2 rfl), if_pos hnet, if_pos (by simp)]

theorem urljoin_path (e : Url.Env) (base url : Str) (bs bn bp bq bf bpar path q f : Str) (h0 : base ≠ []) (h1 : url ≠ [])
    (hb : urlparse e base [] = .ok ⟨⟨bs, bn, bp, bq, bf⟩, bpar⟩) (hr : urlparse e url bs = .ok ⟨⟨bs, [], path, q, f⟩, []⟩)
    (hrel : bs ∈ usesRelative) (hnet : bs ∈ usesNetloc) (hp : path ≠ []) :
    urljoin e base url = .ok (urlunparse ⟨⟨bs, bn, resolvePath bp path, q, f⟩, []⟩) := by
  unfold urljoin
  rw [if_neg h0, if_neg h1, hb]
  simp only [hr]
  rw [if_neg (fun h => h.elim (fun h => h rfl) (fun h => h hrel)), if_neg (fun h => h.2 rfl), if_pos hnet, if_neg (fun h => hp h.1)]

theorem hrefLink_leads (e : Url.Env) (r : Ref) (hr : r.Ok) (hp : PlainRef r) :
    ∃ p, hrefLink e (some r.text) = .ok p ∧ Leads p (resolve indexRef r) := by
  have hport : r.scheme ≠ none → NotPort r := by
    intro h
    obtain ⟨s, hs⟩ := Option.ne_none_iff_exists'.1 h
    cases ha : r.authority with
    | some a => exact .inl (by rw [ha]; simp)
    | none => exact .inr (hp.bare s hs ha).2
  have hfine : ∀ a, r.authority = some a → AuthorityFine a :=
    fun a h => ⟨(hp.authority a h).2.1, (hp.authority a h).2.2.1⟩
  have hbase : urlparse e indexUrl [] = .ok ⟨⟨"https".toList, "updates.clipsal.com".toList, indexRef.path, [], []⟩, []⟩ := by
    rw [← indexRef_text, urlparse_text e indexRef indexRef_ok (fun _ => .inl (by decide)) (by rintro a h; cases h; exact fine_host)
      (by decide +kernel)]
    rfl
  have hself : ∀ sch, urlparse e r.text sch = .ok ⟨⟨(r.scheme.map (·.map Char.toLower)).getD sch, r.authority.getD [], r.path,
      r.query.getD [], r.fragment.getD []⟩, []⟩ := urlparse_text e r hr hport hfine hp.params
  have hpc : ∀ c ∈ r.path, c ≠ '?' ∧ c ≠ '#' ∧ c ≠ ';' :=
    fun c hc => ⟨(hr.path c hc).1, (hr.path c hc).2, fun h => hp.params (h ▸ hc)⟩
  have hq : '#' ∉ r.query.getD [] := by
    cases h : r.query with
    | none => simp
    | some q => exact hr.query q h
  unfold hrefLink
  simp only [Option.getD_some]
  by_cases h0 : r.text = []
  · -- the empty reference
    have hu : urljoin e indexUrl r.text = .ok indexUrl := by
      unfold urljoin
      rw [if_neg (by decide +kernel), if_pos h0]
    rw [hu]
    simp only [hbase]
    refine ⟨_, rfl, ?_⟩
    rw [text_eq] at h0
    simp only [List.append_eq_nil_iff] at h0
    obtain ⟨e1, e2, e3, e4, e5⟩ := h0
    have f1 : r.scheme = none := by cases h : r.scheme with | none => rfl | some s => rw [h] at e1; simp [schemeText] at e1
    have f2 : r.authority = none := by cases h : r.authority with | none => rfl | some s => rw [h] at e2; simp [authorityText] at e2
    have f4 : r.query = none := by cases h : r.query with | none => rfl | some s => rw [h] at e4; simp [queryText] at e4
    have f5 : r.fragment = none := by cases h : r.fragment with | none => rfl | some s => rw [h] at e5; simp [fragmentText] at e5
    unfold resolve
    simp only [f1, f2, f4, e3, ne_eq, not_true_eq_false, if_false, if_true]
    exact ⟨rfl, rfl, rfl, rfl, by simp [f5], fun _ => rfl, fun _ => by decide +kernel⟩
  · have hne : indexUrl ≠ [] := by decide +kernel
    have hrel : "https".toList ∈ usesRelative := by decide +kernel
    have hnet : "https".toList ∈ usesNetloc := by decide +kernel
    cases hs : r.scheme with
    | some s =>
      have ht : resolve indexRef r = { r with path := removeDots r.path } := by
        unfold resolve
        rw [if_pos (by rw [hs]; simp)]
      rw [ht]
      rw [hs] at hself
      by_cases hl : s.map Char.toLower = "https".toList
      · -- the same scheme
        cases ha : r.authority with
        | none => exact absurd hl (hp.bare s hs ha).1
        | some a =>
          obtain ⟨a1, a2, a3, a4⟩ := hp.authority a ha
          rw [ha] at hself
          rw [urljoin_netloc e indexUrl r.text _ _ hne h0 hbase (hself _) hl hrel hnet a1]
          simp only [Option.map_some, Option.getD_some, hl]
          rw [reparse e a r.path _ _ a1 (hr.authority a ha) (hfine a ha) hpc hq]
          refine ⟨_, rfl, rfl, ?_, ?_, rfl, rfl, ?_, fun _ => withSlash_twice _⟩
          · simp [hs, hl]
          · simp [ha]
          · intro _
            show withSlash r.path = removeDots r.path
            rw [a4, withSlash_head _ (hr.after (by rw [ha]; simp))]
      · rw [urljoin_other e indexUrl r.text _ _ hne h0 hbase (hself _) hl]
        simp only
        rw [hself]
        refine ⟨_, rfl, rfl, ?_, rfl, rfl, rfl, ?_, fun h => withSlash_head _ (hr.after h)⟩
        · simp [hs]
        · intro h
          obtain ⟨a, ha⟩ := Option.ne_none_iff_exists'.1 h
          exact ((hp.authority a ha).2.2.2).symm
    | none =>
      rw [hs] at hself
      cases ha : r.authority with
      | some a =>
        obtain ⟨a1, a2, a3, a4⟩ := hp.authority a ha
        rw [ha] at hself
        rw [urljoin_netloc e indexUrl r.text _ _ hne h0 hbase (hself _) rfl hrel hnet a1]
        simp only [Option.map_none, Option.getD_none, Option.getD_some]
        rw [reparse e a r.path _ _ a1 (hr.authority a ha) (hfine a ha) hpc hq]
        have ht : resolve indexRef r = { r with scheme := indexRef.scheme, path := removeDots r.path } := by
          unfold resolve
          rw [if_neg (by rw [hs]; simp), if_pos (by rw [ha]; simp)]
        rw [ht]
        refine ⟨_, rfl, rfl, rfl, ?_, rfl, rfl, ?_, fun _ => withSlash_twice _⟩
        · simp [ha]
        · intro _
          show withSlash r.path = removeDots r.path
          rw [a4, withSlash_head _ (hr.after (by rw [ha]; simp))]
      | none =>
        rw [ha] at hself
        by_cases h1 : r.path = []
        · rw [h1] at hself
          rw [urljoin_empty e indexUrl r.text _ _ _ _ _ _ _ _ hne h0 hbase (hself _) hrel hnet]
          have hq' : (if r.query.getD [] = [] then [] else r.query.getD []) = r.query.getD [] := by
            split
            · rename_i h; rw [h]
            · rfl
          rw [hq']
          show ∃ p, urlparse e _ [] = _ ∧ _
          rw [reparse e _ _ _ _ (by decide) (by decide) fine_host (by decide +kernel) hq]
          have ht : resolve indexRef r = Ref.mk indexRef.scheme indexRef.authority indexRef.path
              (if r.query ≠ none then r.query else none) r.fragment := by
            unfold resolve
            rw [if_neg (by rw [hs]; simp), if_neg (by rw [ha]; simp), if_pos h1]
            rfl
          rw [ht]
          refine ⟨_, rfl, rfl, rfl, rfl, ?_, rfl, fun _ => show withSlash indexRef.path = indexRef.path by decide +kernel, fun _ => withSlash_twice indexRef.path⟩
          show r.query.getD [] = (if r.query ≠ none then r.query else none).getD []
          cases r.query <;> rfl
        · rw [urljoin_path e indexUrl r.text _ _ _ _ _ _ _ _ _ hne h0 hbase (hself _) hrel hnet h1]
          show ∃ p, urlparse e _ [] = _ ∧ _
          obtain ⟨e1, e2⟩ := resolvePath_eq r.path h1 hp.slashes hpc
          rw [reparse e _ _ _ _ (by decide) (by decide) fine_host e2 hq]
          have ht : resolve indexRef r = Ref.mk indexRef.scheme indexRef.authority
              (removeDots (if r.path.head? = some '/' then r.path else merge indexRef.path r.path)) r.query r.fragment := by
            unfold resolve
            rw [if_neg (by rw [hs]; simp), if_neg (by rw [ha]; simp), if_neg h1]
            split <;> rfl
          rw [ht]
          exact ⟨_, rfl, rfl, rfl, rfl, rfl, rfl, fun _ => e1, fun _ => withSlash_twice _⟩

theorem resolve_query (b r : Ref) (h : r.query ≠ some []) (hb : b.query ≠ some []) : (resolve b r).query ≠ some [] := by
  unfold resolve
  split
  · exact h
  · split
    · exact h
    · split
      · show (if r.query ≠ none then r.query else b.query) ≠ some []
        split
        · exact h
        · exact hb
      · split <;> exact h

theorem resolve_fragment (b r : Ref) : (resolve b r).fragment = r.fragment := by
  unfold resolve
  split
  · rfl
  · split
    · rfl
    · split
      · rfl
      · split <;> rfl

/-- A link is followed exactly if it leads to a document. -/
theorem followed_iff {p : Parsed} {t : Ref} (h : Leads p t) :
    ((p.scheme = "http".toList ∨ p.scheme = "https".toList) ∧ p.netloc = indexHost ∧ Str.endsWith p.path ".pdf".toList = true) ↔
      Document t := by
  unfold Document
  rw [← h.scheme]
  have hn : p.netloc = indexHost ↔ t.authority = some "updates.clipsal.com".toList := by
    rw [h.netloc]
    cases t.authority with
    | none => exact ⟨fun h => absurd h (by decide), fun h => by cases h⟩
    | some a => exact ⟨fun h => congrArg some (show a = "updates.clipsal.com".toList from h), fun h => by cases h; rfl⟩
  rw [hn]
  constructor
  · rintro ⟨h1, h2, h3⟩
    refine ⟨h1.imp (fun h => by rw [h]) (fun h => by rw [h]), h2, ?_⟩
    rw [← h.path (by rw [h2]; simp)]
    exact List.isSuffixOf_iff_suffix.1 h3
  · rintro ⟨h1, h2, h3⟩
    refine ⟨h1.imp Option.some.inj Option.some.inj, h2, ?_⟩
    rw [← h.path (by rw [h2]; simp)] at h3
    exact List.isSuffixOf_iff_suffix.2 h3

/-- The address that is requested. -/
theorem requested {p : Parsed} {t : Ref} (h : Leads p t) (hd : Document t) (hq : t.query ≠ some []) (hf : t.fragment ≠ some []) :
    urlunparse p = (lowered t).text := by
  obtain ⟨h1, h2, h3⟩ := hd
  have hs : p.scheme ≠ [] := by
    intro e0
    rw [← h.scheme, e0] at h1
    revert h1
    decide
  have ha : p.netloc ≠ [] := by
    rw [h.netloc, h2]
    decide
  have hauth : t.authority ≠ none := by rw [h2]; simp
  obtain ⟨⟨s, a, pa, q, f⟩, par⟩ := p
  have hpar : par = [] := h.params
  subst hpar
  rw [unparse_text _ _ _ _ _ hs ha]
  have e1 : some s = t.scheme.map (·.map Char.toLower) := h.scheme
  have e2 : some a = t.authority := by
    rw [h2]
    have : a = t.authority.getD [] := h.netloc
    rw [this, h2]
    rfl
  have e3 : withSlash pa = t.path := by rw [← h.path hauth]; exact h.slash hauth
  have e4 : givenText q = t.query := by rw [show q = _ from h.query]; exact givenText_getD _ hq
  have e5 : givenText f = t.fragment := by rw [show f = _ from h.fragment]; exact givenText_getD _ hf
  rw [e1, e2, e3, e4, e5]
  rfl

/-- The tag of a reference. -/
theorem startTag_ref (e : Url.Env) (links : List Parsed) (r : Ref) (hr : r.Ok) (hp : PlainRef r)
    (tag : Str × List (Str × Option Str)) (ht : LinkTag e tag r) :
    ∃ p, Leads p (resolve indexRef r) ∧
      startTag e links tag.1 tag.2 = .ok (if Document (resolve indexRef r) then links ++ [p] else links) := by
  obtain ⟨p, h1, h2⟩ := hrefLink_leads e r hr hp
  obtain ⟨ha, k, hk⟩ := ht
  refine ⟨p, h2, ?_⟩
  unfold startTag
  rw [if_pos ha, hk]
  simp only [h1]
  by_cases hd : Document (resolve indexRef r)
  · rw [if_pos ((followed_iff h2).2 hd), if_pos hd]
  · rw [if_neg (fun h => hd ((followed_iff h2).1 h)), if_neg hd]

/-- C143 as far as it is true. Missing are the references that `PlainRef` leaves out. -/
theorem C143_partial (e : Url.Env) (tagOf : Ref → Str × List (Str × Option Str)) (refs : List Ref)
    (h : ∀ r ∈ refs, r.Ok ∧ LinkTag e (tagOf r) r ∧ PlainRef r) :
    ∃ links, pageLinks e [] (refs.map tagOf) = .ok links ∧
      links.map urlunparse = ((refs.map (resolve indexRef)).filter fun t => Document t).map fun t => (lowered t).text := by
  suffices hs : ∀ (refs : List Ref) (start : List Parsed), (∀ r ∈ refs, r.Ok ∧ LinkTag e (tagOf r) r ∧ PlainRef r) →
      ∃ links, pageLinks e start (refs.map tagOf) = .ok (start ++ links) ∧
        links.map urlunparse = ((refs.map (resolve indexRef)).filter fun t => Document t).map fun t => (lowered t).text by
    obtain ⟨links, h1, h2⟩ := hs refs [] h
    exact ⟨links, h1, h2⟩
  intro refs
  induction refs with
  | nil => exact fun start _ => ⟨[], by simp [pageLinks], rfl⟩
  | cons r refs ih =>
    intro start h
    obtain ⟨h1, h2, h3⟩ := h r List.mem_cons_self
    obtain ⟨p, hl, hst⟩ := startTag_ref e start r h1 h3 _ h2
    have hq : (resolve indexRef r).query ≠ some [] := resolve_query _ _ h3.query (by decide)
    have hf : (resolve indexRef r).fragment ≠ some [] := by rw [resolve_fragment]; exact h3.fragment
    rw [List.map_cons]
    unfold pageLinks
    rw [hst]
    simp only
    obtain ⟨links, h4, h5⟩ := ih (if Document (resolve indexRef r) then start ++ [p] else start)
      (fun r hr => h r (List.mem_cons_of_mem _ hr))
    rw [h4]
    by_cases hd : Document (resolve indexRef r)
    · refine ⟨p :: links, by rw [if_pos hd]; simp, ?_⟩
      rw [List.map_cons, List.map_cons, List.filter_cons_of_pos (by simpa using hd), List.map_cons, h5, requested hl hd hq hf]
    · refine ⟨links, by rw [if_neg hd], ?_⟩
      rw [List.map_cons, List.filter_cons_of_neg (by simpa using hd), h5]

/-- Unicode as far as it is ASCII. -/
def asciiEnv : Url.Env where
  nfkc s := s
  decode b := b.map fun x => Char.ofNat x.toNat
  lower s := s.map Char.toLower
  decode_ascii _ _ := rfl
  ascii_lower _ _ := rfl

/-- `<a href="...">`. -/
def anchor (href : String) : Str × List (Str × Option Str) := ("a".toList, [("href".toList, some href.toList)])

def anchorOf (r : Ref) : Str × List (Str × Option Str) := ("A".toList, [("class".toList, none), ("HREF".toList, some r.text)])

theorem linkTag_anchorOf (r : Ref) : LinkTag asciiEnv (anchorOf r) r := by
  have h : asciiEnv.lower "HREF".toList = "href".toList := by decide
  refine ⟨show asciiEnv.lower "A".toList = "a".toList by decide, "HREF".toList, ?_⟩
  unfold anchorOf
  rw [List.find?_cons_of_neg (by decide)]
  exact List.find?_cons_of_pos (p := fun kv : Str × Option Str => decide (asciiEnv.lower kv.1 = "href".toList)) (decide_eq_true h)

def doubled : Ref := ⟨none, none, "docs//a.pdf".toList, none, none⟩

/-- Of two slashes in a row one is left out, and another address is requested. -/
theorem C143_false : ¬ C143_claim := by
  intro h
  have hok : doubled.Ok := by
    refine ⟨?_, ?_, by decide, ?_, ?_, ?_, ?_⟩
    · rintro s h; cases h
    · rintro s h; cases h
    · intro h; exact absurd rfl h
    · intro _; decide
    · intro _ _; decide
    · rintro s h; cases h
  obtain ⟨links, h1, h2⟩ := h asciiEnv anchorOf [doubled] (by
    intro r hr
    rw [List.mem_singleton.1 hr]
    exact ⟨hok, linkTag_anchorOf _⟩)
  have h3 : pageLinks asciiEnv [] [anchorOf doubled] = .ok [⟨⟨"https".toList, "updates.clipsal.com".toList,
    "/ClipsalSoftwareDownload/DL/downloads/OpenCBus/docs/a.pdf".toList, [], []⟩, []⟩] := by decide +kernel
  rw [List.map_singleton, h3] at h1
  cases h1
  revert h2
  decide +kernel

/-- References that `C143_partial` is about. -/
example : ∀ r ∈ [(⟨none, none, "../x/./c.pdf".toList, some "v=1".toList, some "p".toList⟩ : Ref),
    ⟨some "HTTP".toList, some "updates.clipsal.com".toList, "/d.pdf".toList, none, none⟩], r.Ok ∧ LinkTag asciiEnv (anchorOf r) r ∧ PlainRef r := by
  intro r hr
  rcases List.mem_cons.1 hr with rfl | hr
  · refine ⟨⟨?_, ?_, by decide, ?_, ?_, ?_, ?_⟩, linkTag_anchorOf _, ⟨by decide, by decide +kernel, by decide, by decide, ?_, ?_⟩⟩
    · rintro s h; cases h
    · rintro s h; cases h
    · intro h; exact absurd rfl h
    · intro _; decide
    · intro _ _; decide
    · rintro s h; cases h; decide
    · rintro s h; cases h
    · rintro s h; cases h
  · rw [List.mem_singleton.1 hr]
    refine ⟨⟨?_, ?_, by decide, ?_, ?_, ?_, ?_⟩, linkTag_anchorOf _, ⟨by decide, by decide +kernel, by decide, by decide, ?_, ?_⟩⟩
    · rintro s h; cases h; exact ⟨'H', "TTP".toList, rfl, by decide, by decide⟩
    · rintro s h; cases h; decide
    · intro _; exact .inr rfl
    · rintro h; cases h
    · rintro h; cases h
    · rintro s h; cases h
    · rintro s _ h; cases h
    · rintro s h; cases h; exact ⟨by decide, by decide, by decide, by decide +kernel⟩

/-- What a page leads to. -/
example : ((pageLinks asciiEnv [] [anchor "a%20b.pdf", anchor "../x/./c.pdf?v=1#p", anchor "index.html", anchor "HTTP://updates.clipsal.com/d.pdf",
    anchor "http://example.com/e.pdf", anchor "/f.PDF", anchor "mailto:g.pdf"]).toOption.map
    (·.map fun p => String.ofList (urlunparse p))) = some
    ["https://updates.clipsal.com/ClipsalSoftwareDownload/DL/downloads/OpenCBus/a%20b.pdf",
     "https://updates.clipsal.com/ClipsalSoftwareDownload/DL/downloads/x/c.pdf?v=1#p",
     "http://updates.clipsal.com/d.pdf"] := by decide +kernel

/-! ## The rest of the tool -/

/-- The percent signs of `unquote`. -/
theorem unquoteBytes_plain : ∀ b : Bytes, (0x25 : UInt8) ∉ b → unquoteBytes b = b := by
  intro b
  induction b using unquoteBytes.induct with
  | case1 => intro _; rfl
  | case2 => intro _; rfl
  | case3 => intro _; rfl
  | case4 a b rest x y h1 h2 ih => intro h; simp at h
  | case5 a b rest h1 ih => intro h; simp at h
  | case6 p a b rest hp ih =>
    intro h
    unfold unquoteBytes
    rw [if_neg hp, ih (fun h' => h (List.mem_cons_of_mem _ h'))]

theorem unquoteGo_plain (e : Url.Env) : ∀ (s : Str), '%' ∉ s → ∀ (run pre : Bytes),
    (∀ x : Bytes, (0x25 : UInt8) ∉ x → unquoteBytes (run ++ x) = pre ++ x) → (∀ x ∈ pre, x.toNat < 128) →
    unquoteGo e run s = (pre.map fun x => Char.ofNat x.toNat) ++ s := by
  intro s
  induction s with
  | nil =>
    intro _ run pre h1 h2
    have := h1 [] (by simp)
    simp only [List.append_nil] at this
    unfold unquoteGo
    rw [this, e.decode_ascii _ h2, List.append_nil]
  | cons c s ih =>
    intro hs run pre h1 h2
    have hs' : '%' ∉ s := fun h => hs (List.mem_cons_of_mem _ h)
    unfold unquoteGo
    by_cases hc : c.toNat < 128
    · have h256 : (UInt8.ofNat c.toNat).toNat = c.toNat := Nat.mod_eq_of_lt (by omega)
      have hne : UInt8.ofNat c.toNat ≠ 0x25 := by
        intro h
        apply hs
        have : c.toNat = 0x25 := by rw [← h256, h]; rfl
        have hc' : c = '%' := by rw [← Char.ofNat_toNat c, this]
        rw [hc']
        exact List.mem_cons_self
      rw [if_pos hc, ih hs' _ (pre ++ [UInt8.ofNat c.toNat])]
      · rw [List.map_append, List.map_singleton, h256, Char.ofNat_toNat, List.append_assoc]
        rfl
      · intro x hx
        rw [List.append_assoc, List.append_assoc]
        apply h1
        intro h
        rcases List.mem_cons.1 h with h | h
        · exact hne h.symm
        · exact hx h
      · intro x hx
        rcases List.mem_append.1 hx with hx | hx
        · exact h2 x hx
        · rw [List.mem_singleton.1 hx, h256]
          exact hc
    · have := h1 [] (by simp)
      simp only [List.append_nil] at this
      rw [if_neg hc, this, e.decode_ascii _ h2, ih hs' [] [] (fun x hx => unquoteBytes_plain x hx) (by simp)]
      rfl

/-- `urllib` as the parameter of `Model/Tools.lean`. A link that raises an exception is one that is not
followed. -/
def urllibWeb (e : Url.Env) : Tools.Web where
  parse v :=
    match hrefLink e v with
    | .ok p => toLink p
    | .error _ => ⟨[], [], [], []⟩
  lower := e.lower
  unquote := Url.unquote e
  netloc := indexHost
  ascii_lower := e.ascii_lower
  unquote_plain s h := by
    unfold Url.unquote
    rw [if_neg h]
  unquote_slash s h := by
    have hs : ∀ c ∈ "%2F".toList, c.toNat < 128 := by decide
    unfold Url.unquote
    rw [if_pos (by simp)]
    show unquoteGo e [] ('%' :: '2' :: 'F' :: s) = _
    rw [unquoteGo, if_pos (by decide), unquoteGo, if_pos (by decide), unquoteGo, if_pos (by decide)]
    rw [unquoteGo_plain e s h _ [0x2F]]
    · rfl
    · intro x hx
      show unquoteBytes (0x25 :: 0x32 :: 0x46 :: x) = 0x2F :: x
      unfold unquoteBytes
      simp only [if_true, show hexDigitVal 0x32 = some 2 by decide, show hexDigitVal 0x46 = some 15 by decide]
      rw [unquoteBytes_plain x hx]
      rfl
    · decide

theorem startTag_web (e : Url.Env) (links out : List Parsed) (tag : Str) (attrs : List (Str × Option Str))
    (h : startTag e links tag attrs = .ok out) :
    Tools.handleStartTag (urllibWeb e) (links.map toLink) tag attrs = out.map toLink := by
  unfold startTag at h
  unfold Tools.handleStartTag
  show (if e.lower tag = "a".toList then _ else _) = _
  by_cases ht : e.lower tag = "a".toList
  · rw [if_pos ht] at h ⊢
    show (match attrs.find? fun kv => e.lower kv.1 = "href".toList with
      | some kv => _ | none => _) = _
    cases hf : attrs.find? fun kv => e.lower kv.1 = "href".toList with
    | none => rw [hf] at h; cases h; rfl
    | some kv =>
      rw [hf] at h
      simp only at h ⊢
      cases hl : hrefLink e kv.2 with
      | error x => rw [hl] at h; cases h
      | ok p =>
        rw [hl] at h
        have hw : (urllibWeb e).parse kv.2 = toLink p := by
          show (match hrefLink e kv.2 with | .ok p => toLink p | .error _ => _) = _
          rw [hl]
        rw [hw]
        simp only at h
        split at h
        · rename_i hc
          cases h
          exact (if_pos hc).trans (by simp)
        · rename_i hc
          cases h
          exact if_neg hc
  · rw [if_neg ht] at h ⊢
    cases h
    rfl

/-- With links that can be read, the page leads to the links of `Model/Tools.lean`. -/
theorem pageLinks_web (e : Url.Env) : ∀ (tags : List (Str × List (Str × Option Str))) (links out : List Parsed),
    pageLinks e links tags = .ok out →
    tags.foldl (fun ls t => Tools.handleStartTag (urllibWeb e) ls t.1 t.2) (links.map toLink) = out.map toLink := by
  intro tags
  induction tags with
  | nil => intro links out h; cases h; rfl
  | cons t ts ih =>
    intro links out h
    unfold pageLinks at h
    cases hs : startTag e links t.1 t.2 with
    | error x => rw [hs] at h; cases h
    | ok l =>
      rw [hs] at h
      rw [List.foldl_cons, startTag_web e links l _ _ hs]
      exact ih l out h

/-- The links that are followed. -/
theorem pageLinks_followed (e : Url.Env) : ∀ (tags : List (Str × List (Str × Option Str))) (links out : List Parsed),
    pageLinks e links tags = .ok out →
    ∀ p ∈ out, p ∈ links ∨ (p.scheme = "http".toList ∨ p.scheme = "https".toList) ∧ p.netloc = indexHost ∧
      Str.endsWith p.path ".pdf".toList = true := by
  intro tags
  induction tags with
  | nil => intro links out h; cases h; exact fun p hp => .inl hp
  | cons t ts ih =>
    intro links out h p hp
    unfold pageLinks at h
    cases hs : startTag e links t.1 t.2 with
    | error x => rw [hs] at h; cases h
    | ok l =>
      rw [hs] at h
      rcases ih l out h p hp with hl | hl
      · unfold startTag at hs
        split at hs
        · split at hs
          · split at hs
            · cases hs
            · split at hs
              · rename_i hc
                cases hs
                rcases List.mem_append.1 hl with hl | hl
                · exact .inl hl
                · rw [List.mem_singleton.1 hl]
                  exact .inr hc
              · cases hs; exact .inl hl
          · cases hs; exact .inl hl
        · cases hs; exact .inl hl
      · exact .inr hl

/-- The address of a link. -/
def linkAddress (l : Tools.Link) : Str := l.scheme ++ "://".toList ++ l.netloc ++ withSlash l.path ++ l.rest

theorem unparse_link (p : Parsed) (h1 : p.scheme ≠ []) (h2 : p.netloc ≠ []) (h3 : p.path ≠ []) :
    urlunparse p = linkAddress (toLink p) := by
  obtain ⟨⟨s, a, pa, q, f⟩, par⟩ := p
  have h1 : s ≠ [] := h1
  have h2 : a ≠ [] := h2
  have h3 : pa ≠ [] := h3
  have hh : ∀ x : Str, (pa ++ x).head? = pa.head? := by
    intro x
    cases pa with
    | nil => exact absurd rfl h3
    | cons c r => rfl
  unfold urlunparse urlunsplit linkAddress toLink withSlash
  by_cases hpar : par = []
  · subst hpar
    simp [h1, h2]
  · simp [h1, h2, h3, hpar, hh]
    split <;> simp

theorem saveFile_web (e : Url.Env) (get : Str → Option Tools.Answer) (destination : Str) (d : Tools.Contents) (p : Parsed)
    (h1 : p.scheme ≠ []) (h2 : p.netloc ≠ []) (h3 : p.path ≠ []) :
    saveFile e get destination d p = Tools.fetchFile (urllibWeb e) (fun l => get (linkAddress l)) destination d (toLink p) := by
  unfold saveFile Tools.fetchFile
  simp only
  rw [unparse_link p h1 h2 h3]
  rfl

theorem saveFiles_web (e : Url.Env) (get : Str → Option Tools.Answer) (destination : Str) : ∀ (ls : List Parsed) (d : Tools.Contents),
    (∀ p ∈ ls, p.scheme ≠ [] ∧ p.netloc ≠ [] ∧ p.path ≠ []) →
    saveFiles e get destination ls d =
      Tools.fetchFiles (urllibWeb e) (fun l => get (linkAddress l)) destination (ls.map toLink) d := by
  intro ls
  induction ls with
  | nil => intro d _; rfl
  | cons p ls ih =>
    intro d h
    obtain ⟨h1, h2, h3⟩ := h p List.mem_cons_self
    rw [List.map_cons]
    unfold saveFiles Tools.fetchFiles
    rw [saveFile_web e get destination d p h1 h2 h3]
    split
    · rename_i hs
      rw [hs]
      exact ih _ fun p hp => h p (List.mem_cons_of_mem _ hp)
    · rename_i hs
      rw [hs]

def termsRef : Ref :=
  ⟨some "https".toList, some "updates.clipsal.com".toList,
   "/ClipsalSoftwareDownload/DL/downloads/OpenCBus/Open%20C-Bus%20Serial%20Protocol%20Agreement.pdf".toList, none, none⟩

def termsLink : Parsed := ⟨⟨"https".toList, "updates.clipsal.com".toList, termsRef.path, [], []⟩, []⟩

theorem terms_parse (e : Url.Env) : urlparse e termsUrl [] = .ok termsLink := by
  have hok : termsRef.Ok := by
    refine ⟨?_, ?_, by decide +kernel, fun _ => .inr (by decide +kernel), ?_, ?_, ?_⟩
    · rintro s h; cases h; exact ⟨'h', "ttps".toList, rfl, by decide, by decide⟩
    · rintro s h; cases h; decide
    · intro h; cases h
    · intro h; cases h
    · rintro s h; cases h
  have ht : termsUrl = termsRef.text := by decide +kernel
  rw [ht, urlparse_text e _ hok (fun _ => .inl (by simp [termsRef])) (by rintro x h; cases h; exact fine_host) (by decide +kernel)]
  rfl

/-- With links that can be read, the tool is that of `Model/Downloads.lean`, so that C85, C86, C111 and C140 are
about it. -/
theorem download_web (e : Url.Env) (get : Str → Option Tools.Answer) (tags : List (Str × List (Str × Option Str))) (place : Tools.Place)
    (destination : Str) (d : Tools.Contents) (links : List Parsed) (h : pageLinks e [] tags = .ok links) :
    downloadAll e get (some tags) place destination d =
      let r := Tools.fetchDocs (urllibWeb e) (fun l => get (linkAddress l)) (some tags) place destination (toLink termsLink) d
      (r.1, .fetch r.2) := by
  have hl : ∀ p ∈ links, p.scheme ≠ [] ∧ p.netloc ≠ [] ∧ p.path ≠ [] := by
    intro p hp
    rcases pageLinks_followed e tags [] links h p hp with hn | ⟨h1, h2, h3⟩
    · cases hn
    · refine ⟨?_, by rw [h2]; decide, ?_⟩
      · rcases h1 with h1 | h1 <;> rw [h1] <;> decide
      · intro h0
        rw [h0] at h3
        cases h3
  have hw := pageLinks_web e tags [] links h
  rw [List.map_nil] at hw
  unfold downloadAll Tools.fetchDocs
  rw [terms_parse]
  simp only [saveFile_web e get destination d termsLink (by decide) (by decide) (by decide), h, hw]
  by_cases hp : place = .file ∨ place = .nothing ∧ destination = []
  · rw [if_pos hp, if_pos hp]
  · rw [if_neg hp, if_neg hp]
    generalize Tools.fetchFile (urllibWeb e) (fun l => get (linkAddress l)) destination d (toLink termsLink) = r
    obtain ⟨d1, b⟩ := r
    cases b with
    | false => rfl
    | true =>
      simp only [saveFiles_web e get destination links _ hl]
      generalize Tools.fetchFiles (urllibWeb e) (fun l => get (linkAddress l)) destination (links.map toLink) d1 = r
      obtain ⟨d2, b⟩ := r
      cases b <;> rfl

/-- The name of the file of a document. -/
def savedAs (e : Url.Env) (destination : Str) (p : Parsed) : Str :=
  Tools.joinPath destination (Url.unquote e (Tools.lastPart p.path))

/-- The claim: every document that the page refers to is there in the end, if all requests are answered. -/
def C144_claim : Prop :=
  ∀ (e : Url.Env) (get : Str → Option Tools.Answer) (tags : List (Str × List (Str × Option Str))) (destination : Str)
    (before : Tools.Contents), (∀ u, get u ≠ none) →
    ∀ t ∈ tags, ∀ p, startTag e [] t.1 t.2 = .ok [p] →
      savedAs e destination p ∈ (downloadAll e get (some tags) .directory destination before).1.map (·.1)

/-- One link that cannot be read is enough, even after the others. -/
theorem C144_false : ¬ C144_claim := by
  intro h
  have := h asciiEnv (fun _ => some ⟨200, []⟩) [anchor "a.pdf", anchor "//["] "docs".toList [] (by simp) (anchor "a.pdf") (by simp)
    ⟨⟨"https".toList, "updates.clipsal.com".toList, "/ClipsalSoftwareDownload/DL/downloads/OpenCBus/a.pdf".toList, [], []⟩, []⟩
    (by decide +kernel)
  revert this
  decide +kernel

/-- A tag adds to the links what it adds to none. -/
theorem startTag_add (e : Url.Env) (links : List Parsed) (tag : Str) (attrs : List (Str × Option Str)) :
    startTag e links tag attrs = match startTag e [] tag attrs with
      | .error x => .error x
      | .ok l => .ok (links ++ l) := by
  unfold startTag
  split
  · split
    · split
      · rfl
      · split
        · rfl
        · simp
    · simp
  · simp

theorem pageLinks_add (e : Url.Env) : ∀ (tags : List (Str × List (Str × Option Str))) (links : List Parsed),
    (∀ t ∈ tags, ∃ l, startTag e [] t.1 t.2 = .ok l) →
    ∃ out, pageLinks e links tags = .ok (links ++ out) ∧
      ∀ p, p ∈ out ↔ ∃ t ∈ tags, ∃ l, startTag e [] t.1 t.2 = .ok l ∧ p ∈ l := by
  intro tags
  induction tags with
  | nil => exact fun links _ => ⟨[], by simp [pageLinks], by simp⟩
  | cons t ts ih =>
    intro links h
    obtain ⟨l, hl⟩ := h t List.mem_cons_self
    obtain ⟨out, h1, h2⟩ := ih (links ++ l) fun t ht => h t (List.mem_cons_of_mem _ ht)
    refine ⟨l ++ out, ?_, ?_⟩
    · unfold pageLinks
      rw [startTag_add, hl]
      simp only
      rw [h1, List.append_assoc]
    · intro p
      rw [List.mem_append, h2]
      constructor
      · rintro (hp | ⟨t', h3, h4⟩)
        · exact ⟨t, List.mem_cons_self, l, hl, hp⟩
        · exact ⟨t', List.mem_cons_of_mem _ h3, h4⟩
      · rintro ⟨t', h3, l', h4, h5⟩
        rcases List.mem_cons.1 h3 with rfl | h3
        · rw [hl] at h4
          cases h4
          exact .inl h5
        · exact .inr ⟨t', h3, l', h4, h5⟩

theorem saveFile_some (e : Url.Env) (get : Str → Option Tools.Answer) (destination : Str) (d : Tools.Contents) (p : Parsed)
    (hg : ∀ u, get u ≠ none) :
    ∃ d', saveFile e get destination d p = (d', true) ∧ d <+: d' ∧ savedAs e destination p ∈ d'.map (·.1) := by
  unfold saveFile
  simp only
  by_cases h : savedAs e destination p ∈ d.map (·.1)
  · exact ⟨d, if_pos h, List.prefix_refl _, h⟩
  · obtain ⟨a, ha⟩ := Option.ne_none_iff_exists'.1 (hg (urlunparse p))
    refine ⟨d ++ [(savedAs e destination p, a.body)], ?_, List.prefix_append _ _, by simp⟩
    refine (if_neg h).trans ?_
    rw [ha]
    rfl

theorem saveFiles_some (e : Url.Env) (get : Str → Option Tools.Answer) (destination : Str) (hg : ∀ u, get u ≠ none) :
    ∀ (ls : List Parsed) (d : Tools.Contents), ∃ d', saveFiles e get destination ls d = (d', true) ∧ d <+: d' ∧
      ∀ p ∈ ls, savedAs e destination p ∈ d'.map (·.1) := by
  intro ls
  induction ls with
  | nil => exact fun d => ⟨d, rfl, List.prefix_refl _, by simp⟩
  | cons p ls ih =>
    intro d
    obtain ⟨d1, h1, h2, h3⟩ := saveFile_some e get destination d p hg
    obtain ⟨d2, h4, h5, h6⟩ := ih d1
    refine ⟨d2, ?_, h2.trans h5, ?_⟩
    · unfold saveFiles
      rw [h1]
      exact h4
    · intro q hq
      rcases List.mem_cons.1 hq with rfl | hq
      · exact (h5.sublist.map _).subset h3
      · exact h6 q hq

/-- C144 as far as it is true. Missing are the pages with a link that cannot be read. -/
theorem C144_partial (e : Url.Env) (get : Str → Option Tools.Answer) (tags : List (Str × List (Str × Option Str))) (destination : Str)
    (before : Tools.Contents) (hg : ∀ u, get u ≠ none) (hr : ∀ t ∈ tags, ∃ l, startTag e [] t.1 t.2 = .ok l) :
    (downloadAll e get (some tags) .directory destination before).2 = .fetch .done ∧
    ∀ t ∈ tags, ∀ p, startTag e [] t.1 t.2 = .ok [p] →
      savedAs e destination p ∈ (downloadAll e get (some tags) .directory destination before).1.map (·.1) := by
  obtain ⟨links, h1, h2⟩ := pageLinks_add e tags [] hr
  obtain ⟨d1, h3, -, -⟩ := saveFile_some e get destination before termsLink hg
  obtain ⟨d2, h4, -, h5⟩ := saveFiles_some e get destination hg links d1
  have hd : downloadAll e get (some tags) .directory destination before = (d2, .fetch .done) := by
    unfold downloadAll
    rw [if_neg (by simp), terms_parse]
    simp only [h3, h1, List.nil_append, h4]
  rw [hd]
  exact ⟨rfl, fun t ht p hp => h5 p ((h2 p).2 ⟨t, ht, [p], hp, List.mem_singleton.2 rfl⟩)⟩

theorem urlsplit_error {e : Url.Env} {u s : Str} {x : PyErr} (h : urlsplit e u s = .error x) : x = .valueError := by
  have hc : ∀ (c d : Prop) [Decidable c] [Decidable d] (y : Split),
      (if c then .error .valueError else if d then .ok y else .error .valueError : Py Split) = .error x → x = .valueError := by
    intro c d _ _ y h
    split at h
    · cases h; rfl
    · split at h
      · cases h
      · cases h; rfl
  exact hc _ _ _ h

theorem urlparse_error {e : Url.Env} {u s : Str} {x : PyErr} (h : urlparse e u s = .error x) : x = .valueError := by
  unfold urlparse at h
  split at h
  · rename_i h'; cases h; exact urlsplit_error h'
  · split at h <;> cases h

theorem hrefLink_error {e : Url.Env} {v : Option Str} {x : PyErr} (h : hrefLink e v = .error x) : x = .valueError := by
  unfold hrefLink at h
  split at h
  · rename_i x' h'
    cases h
    unfold urljoin at h'
    split at h'
    · cases h'
    · split at h'
      · cases h'
      · split at h'
        · rename_i h''; cases h'; exact urlparse_error h''
        · split at h'
          · rename_i h''; cases h'; exact urlparse_error h''
          · split at h'
            · cases h'
            · split at h'
              · cases h'
              · simp only at h'
                split at h' <;> cases h'
  · exact urlparse_error h

theorem startTag_error {e : Url.Env} {links : List Parsed} {tag : Str} {attrs : List (Str × Option Str)} {x : PyErr}
    (h : startTag e links tag attrs = .error x) : x = .valueError := by
  unfold startTag at h
  split at h
  · split at h
    · split at h
      · rename_i h'; cases h; exact hrefLink_error h'
      · split at h <;> cases h
    · cases h
  · cases h

theorem pageLinks_error (e : Url.Env) : ∀ (tags : List (Str × List (Str × Option Str))) (links : List Parsed),
    (∃ t ∈ tags, ∃ x, startTag e [] t.1 t.2 = .error x) → pageLinks e links tags = .error .valueError := by
  intro tags
  induction tags with
  | nil => rintro links ⟨t, h, -⟩; cases h
  | cons t ts ih =>
    rintro links ⟨t', h1, x, h2⟩
    unfold pageLinks
    rw [startTag_add]
    cases hs : startTag e [] t.1 t.2 with
    | error y => simp only; rw [startTag_error hs]
    | ok l =>
      simp only
      rcases List.mem_cons.1 h1 with rfl | h1
      · rw [hs] at h2; cases h2
      · exact ih _ ⟨t', h1, x, h2⟩

/-- A page with a link that cannot be read: the tool ends with a `ValueError`, and has saved the terms and nothing else. -/
theorem C144_stops (e : Url.Env) (get : Str → Option Tools.Answer) (tags : List (Str × List (Str × Option Str))) (destination : Str)
    (before : Tools.Contents) (hg : ∀ u, get u ≠ none) (hr : ∃ t ∈ tags, ∃ x, startTag e [] t.1 t.2 = .error x) :
    (downloadAll e get (some tags) .directory destination before).2 = .raised .valueError ∧
    ∀ n b, (n, b) ∈ (downloadAll e get (some tags) .directory destination before).1 →
      (n, b) ∈ before ∨ n = savedAs e destination termsLink := by
  obtain ⟨d1, h3, -, -⟩ := saveFile_some e get destination before termsLink hg
  have hd : downloadAll e get (some tags) .directory destination before = (d1, .raised .valueError) := by
    unfold downloadAll
    rw [if_neg (by simp), terms_parse]
    simp only [h3, pageLinks_error e tags [] hr]
  rw [hd]
  refine ⟨rfl, fun n b h => ?_⟩
  unfold saveFile at h3
  simp only at h3
  split at h3
  · cases h3; exact .inl h
  · split at h3
    · cases h3
      rcases List.mem_append.1 h with h | h
      · exact .inl h
      · exact .inr (Prod.mk.inj (List.mem_singleton.1 h)).1
    · cases h3

/-- The terms are saved under the name that one would expect. -/
theorem terms_name : savedAs asciiEnv "docs".toList termsLink = "docs/Open C-Bus Serial Protocol Agreement.pdf".toList := by
  decide +kernel

example : downloadAll asciiEnv (fun u => some ⟨200, u.map fun c => UInt8.ofNat c.toNat⟩) (some [anchor "a%20b.pdf", anchor "x.html", anchor "/c.pdf"])
    .directory "docs".toList [("docs/c.pdf".toList, [])] =
    ([("docs/c.pdf".toList, []), ("docs/Open C-Bus Serial Protocol Agreement.pdf".toList, ascii (String.ofList termsUrl)),
      ("docs/a b.pdf".toList, ascii "https://updates.clipsal.com/ClipsalSoftwareDownload/DL/downloads/OpenCBus/a%20b.pdf")],
     .fetch .done) := by decide +kernel

example : (downloadAll asciiEnv (fun _ => some ⟨200, []⟩) (some [anchor "a.pdf", anchor "http://[updates.clipsal.com/b.pdf"])
    .directory "docs".toList []) = ([("docs/Open C-Bus Serial Protocol Agreement.pdf".toList, [])], .raised .valueError) := by
  decide +kernel

/-! ## Which links can be read -/

/-- ASCII without brackets. -/
def Safe (s : Str) : Prop := ∀ c ∈ s, c.toNat < 128 ∧ c ≠ '[' ∧ c ≠ ']'

theorem Safe.sub {s t : Str} (h : Safe t) (hs : ∀ c ∈ s, c ∈ t) : Safe s := fun c hc => h c (hs c hc)

theorem Safe.append {s t : Str} (h1 : Safe s) (h2 : Safe t) : Safe (s ++ t) := by
  intro c hc
  rcases List.mem_append.1 hc with hc | hc
  · exact h1 c hc
  · exact h2 c hc

theorem Safe.cons {c : Char} {t : Str} (h1 : c.toNat < 128 ∧ c ≠ '[' ∧ c ≠ ']') (h2 : Safe t) : Safe (c :: t) := by
  intro x hc
  rcases List.mem_cons.1 hc with rfl | hc
  · exact h1
  · exact h2 x hc

theorem Safe.nil : Safe [] := by intro c hc; cases hc

theorem Safe.ite {p : Prop} [Decidable p] {s t : Str} (h1 : Safe s) (h2 : Safe t) : Safe (if p then s else t) := by
  split
  · exact h1
  · exact h2

theorem lower_ascii : ∀ n, n < 128 → Char.ofNat n ≠ '[' ∧ Char.ofNat n ≠ ']' →
    (Char.ofNat n).toLower.toNat < 128 ∧ (Char.ofNat n).toLower ≠ '[' ∧ (Char.ofNat n).toLower ≠ ']' := by decide +kernel

theorem Safe.lower {s : Str} (h : Safe s) : Safe (s.map Char.toLower) := by
  intro c hc
  obtain ⟨x, hx, rfl⟩ := List.mem_map.1 hc
  obtain ⟨h1, h2⟩ := h x hx
  have := lower_ascii x.toNat h1
  rw [Char.ofNat_toNat] at this
  exact this h2

theorem Safe.cut {s : Str} (h : Safe s) (c : Char) : Safe (Url.cut c s).1 ∧ Safe (Url.cut c s).2 :=
  ⟨h.sub fun _ hc => (List.takeWhile_sublist _).subset hc,
   h.sub fun _ hc => (List.dropWhile_sublist _).subset (List.drop_subset _ _ hc)⟩

/-- All parts are safe. -/
structure SafeParts (s : Split) : Prop where
  scheme : Safe s.scheme
  netloc : Safe s.netloc
  path : Safe s.path
  query : Safe s.query
  fragment : Safe s.fragment

theorem urlsplit_safe (e : Url.Env) (u s : Str) (hu : Safe u) (hs : Safe s) : ∃ r, urlsplit e u s = .ok r ∧ SafeParts r := by
  have hsu : ∃ a b, (if hasScheme u then ((cut ':' u).1.map Char.toLower, (cut ':' u).2) else (s, u)) = (a, b) ∧ Safe a ∧ Safe b := by
    split
    · exact ⟨_, _, rfl, (hu.cut ':').1.lower, (hu.cut ':').2⟩
    · exact ⟨_, _, rfl, hs, hu⟩
  obtain ⟨a, b, e1, ha, hb⟩ := hsu
  have hnu : ∃ n p, (if b.take 2 = ['/', '/'] then
      ((b.drop 2).takeWhile fun c => !endsNetloc c, (b.drop 2).dropWhile fun c => !endsNetloc c)
    else ([], b)) = (n, p) ∧ Safe n ∧ Safe p := by
    split
    · exact ⟨_, _, rfl, hb.sub fun _ hc => List.drop_subset _ _ ((List.takeWhile_sublist _).subset hc),
        hb.sub fun _ hc => List.drop_subset _ _ ((List.dropWhile_sublist _).subset hc)⟩
    · exact ⟨_, _, rfl, Safe.nil, hb⟩
  obtain ⟨n, p, e2, hn, hp⟩ := hnu
  have h1 : n.contains '[' = false := by
    rw [Bool.eq_false_iff]
    intro h
    exact (hn _ (List.contains_iff_mem.1 h)).2.1 rfl
  have h2 : n.contains ']' = false := by
    rw [Bool.eq_false_iff]
    intro h
    exact (hn _ (List.contains_iff_mem.1 h)).2.2 rfl
  have h3 : netlocOk e n = true := by
    unfold netlocOk
    rw [show (n.all fun c => decide (c.toNat < 128)) = true from List.all_eq_true.2 fun c hc => decide_eq_true (hn c hc).1]
    rfl
  refine ⟨⟨a, n, (cut '?' (cut '#' p).1).1, (cut '?' (cut '#' p).1).2, (cut '#' p).2⟩, ?_, ha, hn,
    ((hp.cut '#').1.cut '?').1, ((hp.cut '#').1.cut '?').2, (hp.cut '#').2⟩
  unfold urlsplit
  simp only [e1, e2, h1, h2, h3, ne_eq, not_true_eq_false, if_false, if_true]

theorem lastPart_subset (s : Str) : ∀ c ∈ Tools.lastPart s, c ∈ s := by
  intro c hc
  unfold Tools.lastPart at hc
  exact List.mem_reverse.1 ((List.takeWhile_sublist _).subset (List.mem_reverse.1 hc))

theorem urlparse_safe (e : Url.Env) (u s : Str) (hu : Safe u) (hs : Safe s) :
    ∃ r, urlparse e u s = .ok r ∧ SafeParts r.toSplit ∧ Safe r.params := by
  obtain ⟨r, h1, h2⟩ := urlsplit_safe e u s hu hs
  unfold urlparse
  rw [h1]
  simp only
  split
  · have hl : Safe (Tools.lastPart r.path) := h2.path.sub (lastPart_subset _)
    refine ⟨_, rfl, ⟨h2.scheme, h2.netloc, ?_, h2.query, h2.fragment⟩, (hl.cut ';').2⟩
    exact (h2.path.sub fun _ hc => List.take_subset _ _ hc).append (hl.cut ';').1
  · exact ⟨_, rfl, h2, Safe.nil⟩

theorem urlunsplit_safe (s : Split) (h : SafeParts s) : Safe (urlunsplit s) := by
  unfold urlunsplit
  simp only
  refine ((Safe.append (Safe.append ?_ ?_) ?_).append ?_)
  · exact (h.scheme.append (Safe.cons (by decide) Safe.nil)).ite Safe.nil
  · refine Safe.ite ?_ h.path
    refine Safe.append (Safe.cons (by decide) (Safe.cons (by decide) h.netloc)) ?_
    exact (Safe.cons (by decide) h.path).ite h.path
  · exact (Safe.cons (by decide) h.query).ite Safe.nil
  · exact (Safe.cons (by decide) h.fragment).ite Safe.nil

theorem urlunparse_safe (p : Parsed) (h : SafeParts p.toSplit) (hp : Safe p.params) : Safe (urlunparse p) := by
  unfold urlunparse
  apply urlunsplit_safe
  split
  · exact ⟨h.scheme, h.netloc, h.path.append (Safe.cons (by decide) hp), h.query, h.fragment⟩
  · exact h

theorem splitOn_subset {p s : Str} {c : Char} (h1 : s ∈ splitOn '/' p) (h2 : c ∈ s) : c ∈ '/' :: p := by
  rw [← flat_splitOn]
  exact mem_flat.2 (.inr ⟨s, h1, h2⟩)

theorem resolveGo_subset : ∀ (l done : List Str), ∀ s ∈ resolveGo done l, s ∈ done ∨ s ∈ l := by
  intro l
  induction l with
  | nil => intro done s h; exact .inl h
  | cons x l ih =>
    intro done s h
    unfold resolveGo at h
    split at h
    · rcases ih _ s h with h | h
      · exact .inl (List.dropLast_subset _ h)
      · exact .inr (List.mem_cons_of_mem _ h)
    · split at h
      · rcases ih _ s h with h | h
        · exact .inl h
        · exact .inr (List.mem_cons_of_mem _ h)
      · rcases ih _ s h with h | h
        · rcases List.mem_append.1 h with h | h
          · exact .inl h
          · rw [List.mem_singleton.1 h]; exact .inr List.mem_cons_self
        · exact .inr (List.mem_cons_of_mem _ h)

theorem joinSlash_safe : ∀ l : List Str, (∀ s ∈ l, Safe s) → Safe (joinSlash l)
  | [], _ => Safe.nil
  | [s], h => h s List.mem_cons_self
  | s :: x :: l, h => by
    unfold joinSlash
    exact (h s List.mem_cons_self).append (Safe.cons (by decide) (joinSlash_safe (x :: l) fun s hs => h s (List.mem_cons_of_mem _ hs)))

theorem resolvePath_safe (b p : Str) (hb : Safe b) (hp : Safe p) : Safe (resolvePath b p) := by
  have hsb : ∀ s ∈ splitOn '/' b, Safe s := fun s hs => (Safe.cons (by decide) hb).sub fun c hc => splitOn_subset hs hc
  have hsp : ∀ s ∈ splitOn '/' p, Safe s := fun s hs => (Safe.cons (by decide) hp).sub fun c hc => splitOn_subset hs hc
  have hseg : ∀ s ∈ segmentsOf b p, Safe s := by
    intro s hs
    unfold segmentsOf at hs
    split at hs
    · exact hsp s hs
    · simp only at hs
      have hd : ∀ (l : List Str), ∀ s ∈ dropEmpty l, s ∈ l := by
        intro l s h
        cases l with
        | nil => exact h
        | cons x l =>
          unfold dropEmpty at h
          rcases List.mem_cons.1 h with h | h
          · rw [h]; exact List.mem_cons_self
          · refine List.mem_cons_of_mem _ ?_
            rcases List.mem_append.1 h with h | h
            · exact List.dropLast_subset _ (List.mem_filter.1 h).1
            · rw [Option.mem_toList] at h
              exact List.mem_of_getLast? h
      rcases List.mem_append.1 (hd _ s hs) with h | h
      · refine hsb s ?_
        split at h
        · exact List.dropLast_subset _ h
        · exact h
      · exact hsp s h
  unfold resolvePath
  simp only
  refine Safe.ite (Safe.cons (by decide) Safe.nil) (joinSlash_safe _ ?_)
  intro s hs
  have hr : ∀ s ∈ resolveGo [] (segmentsOf b p), Safe s := by
    intro s hs
    rcases resolveGo_subset _ _ s hs with h | h
    · cases h
    · exact hseg s h
  split at hs
  · rcases List.mem_append.1 hs with h | h
    · exact hr s h
    · rw [List.mem_singleton.1 h]; exact Safe.nil
  · exact hr s hs

/-- Every link of ASCII characters without brackets can be read. -/
theorem C144_readable (e : Url.Env) (v : Option Str) (hv : ∀ s, v = some s → Safe s) : ∃ p, hrefLink e v = .ok p := by
  have hs : Safe (v.getD []) := by
    cases v with
    | none => exact Safe.nil
    | some s => exact hv s rfl
  have hi : Safe indexUrl := by unfold Safe; decide +kernel
  have hj : ∃ t, urljoin e indexUrl (v.getD []) = .ok t ∧ Safe t := by
    obtain ⟨b, hb, hb1, hb2⟩ := urlparse_safe e indexUrl [] hi Safe.nil
    obtain ⟨r, hr, hr1, hr2⟩ := urlparse_safe e (v.getD []) b.scheme hs hb1.scheme
    unfold urljoin
    rw [hb]
    simp only [hr]
    split
    · exact ⟨_, rfl, hs⟩
    · split
      · exact ⟨_, rfl, hi⟩
      · split
        · exact ⟨_, rfl, hs⟩
        · split
          · exact ⟨_, rfl, urlunparse_safe _ hr1 hr2⟩
          · split
            · exact ⟨_, rfl, urlunparse_safe _ ⟨hr1.scheme, hb1.netloc.ite hr1.netloc, hb1.path, hb1.query.ite hr1.query,
                hr1.fragment⟩ hb2⟩
            · exact ⟨_, rfl, urlunparse_safe _ ⟨hr1.scheme, hb1.netloc.ite hr1.netloc, resolvePath_safe _ _ hb1.path hr1.path,
                hr1.query, hr1.fragment⟩ hr2⟩
  obtain ⟨t, h1, h2⟩ := hj
  obtain ⟨r, h3, -⟩ := urlparse_safe e t [] h2 Safe.nil
  exact ⟨r, by unfold hrefLink; rw [h1]; exact h3⟩

example : Safe "docs/../a//b;v=1.pdf?x#y".toList := by unfold Safe; decide +kernel

/-- A page of such links leads to all its documents. -/
theorem C144_plain (e : Url.Env) (get : Str → Option Tools.Answer) (tags : List (Str × List (Str × Option Str))) (destination : Str)
    (before : Tools.Contents) (hg : ∀ u, get u ≠ none) (hs : ∀ t ∈ tags, ∀ kv ∈ t.2, ∀ s, kv.2 = some s → Safe s) :
    (downloadAll e get (some tags) .directory destination before).2 = .fetch .done := by
  refine (C144_partial e get tags destination before hg ?_).1
  intro t ht
  unfold startTag
  split
  · split
    · rename_i kv hkv
      obtain ⟨p, hp⟩ := C144_readable e kv.2 (hs t ht kv (List.mem_of_find?_eq_some hkv))
      rw [hp]
      simp only
      split
      · exact ⟨_, rfl⟩
      · exact ⟨_, rfl⟩
    · exact ⟨_, rfl⟩
  · exact ⟨_, rfl⟩

end CBus.Props
