import Verif.Model.Downloads
import Verif.Props.Tools

/-! # C111: what fetch_protocol_docs saves -/

namespace CBus.Props
open CBus CBus.Tools CBus.Spec

/-- A page: its start tags. -/
abbrev Page := List (Str × List (Str × Option Str))

/-- The link is one that the tool is to download. -/
def Wanted (w : Web) (terms : Link) (page : Option Page) (l : Link) : Prop :=
  l = terms ∨ ∃ tags, page = some tags ∧ IsDocument w tags l

/-- The claim: every file that the tool saves is a document that the server has under a
link with that name. -/
def C111_claim : Prop :=
  ∀ (w : Web) (get : Link → Option Answer) (page : Option Page) (place : Place) (destination : Str) (terms : Link)
    (before : Contents) (n : Str) (b : Bytes),
    (n, b) ∈ (fetchDocs w get page place destination terms before).1 → (n, b) ∉ before →
    ∃ l, Wanted w terms page l ∧ n = fileName w destination l ∧ get l = some ⟨200, b⟩

/-- What is saved by a loop over links. -/
structure Saved (w : Web) (get : Link → Option Answer) (destination : Str) (links : List Link) (d d' : Contents) : Prop where
  kept : d <+: d'
  source : ∀ n b, (n, b) ∈ d' → (n, b) ∈ d ∨ n ∉ d.map (·.1) ∧ ∃ l ∈ links, ∃ a, n = fileName w destination l ∧ get l = some a ∧ b = a.body

theorem Saved.refl (w : Web) (get : Link → Option Answer) (destination : Str) (links : List Link) (d : Contents) :
    Saved w get destination links d d := ⟨List.prefix_refl _, fun _ _ h => .inl h⟩

theorem Saved.trans {w : Web} {get : Link → Option Answer} {destination : Str} {l1 l2 : List Link} {a b c : Contents}
    (h1 : Saved w get destination l1 a b) (h2 : Saved w get destination l2 b c) :
    Saved w get destination (l1 ++ l2) a c := by
  refine ⟨h1.kept.trans h2.kept, fun n x h => ?_⟩
  rcases h2.source n x h with h | ⟨h0, l, hl, r⟩
  · rcases h1.source n x h with h | ⟨h0, l, hl, r⟩
    · exact .inl h
    · exact .inr ⟨h0, l, List.mem_append_left _ hl, r⟩
  · refine .inr ⟨fun g => h0 ?_, l, List.mem_append_right _ hl, r⟩
    obtain ⟨t, ht⟩ := h1.kept
    rw [← ht, List.map_append]
    exact List.mem_append_left _ g

theorem fetchFile_saved (w : Web) (get : Link → Option Answer) (destination : Str) (d : Contents) (l : Link) :
    Saved w get destination [l] d (fetchFile w get destination d l).1 ∧
    ((fetchFile w get destination d l).2 = true → fileName w destination l ∈ (fetchFile w get destination d l).1.map (·.1)) ∧
    ((fetchFile w get destination d l).2 = false → get l = none) := by
  unfold fetchFile
  simp only
  by_cases h : fileName w destination l ∈ d.map (·.1)
  · rw [if_pos h]
    exact ⟨.refl .., fun _ => h, fun g => by cases g⟩
  · rw [if_neg h]
    cases hg : get l with
    | none => exact ⟨.refl .., fun g => (nomatch g), fun _ => rfl⟩
    | some a =>
      refine ⟨⟨⟨_, rfl⟩, fun n b hm => ?_⟩, fun _ => by simp, fun g => by cases g⟩
      rcases List.mem_append.1 hm with hm | hm
      · exact .inl hm
      · rw [List.mem_singleton] at hm
        cases hm
        exact .inr ⟨h, l, by simp, a, rfl, hg, rfl⟩

theorem fetchFiles_saved (w : Web) (get : Link → Option Answer) (destination : Str) : ∀ (ls : List Link) (d : Contents),
    Saved w get destination ls d (fetchFiles w get destination ls d).1 ∧
    ((fetchFiles w get destination ls d).2 = true →
      ∀ l ∈ ls, fileName w destination l ∈ (fetchFiles w get destination ls d).1.map (·.1)) ∧
    ((fetchFiles w get destination ls d).2 = false → ∃ l ∈ ls, get l = none) := by
  intro ls
  induction ls with
  | nil => intro d; exact ⟨.refl .., fun _ l h => (nomatch h), fun h => (nomatch h)⟩
  | cons l ls ih =>
    intro d
    obtain ⟨h1, h2, h3⟩ := fetchFile_saved w get destination d l
    unfold fetchFiles
    generalize fetchFile w get destination d l = z at h1 h2 h3
    obtain ⟨d1, ok⟩ := z
    simp only at h1 h2 h3
    cases ok with
    | false => exact ⟨⟨h1.kept, fun n b h => by
        rcases h1.source n b h with h | ⟨h0, l', hl, r⟩
        · exact .inl h
        · exact .inr ⟨h0, l', by simp at hl; simp [hl], r⟩⟩, fun h => (nomatch h), fun _ => ⟨l, by simp, h3 rfl⟩⟩
    | true =>
      obtain ⟨g1, g2, g3⟩ := ih d1
      refine ⟨h1.trans g1, fun h x hx => ?_, fun h => ?_⟩
      · rcases List.mem_cons.1 hx with rfl | hx
        · obtain ⟨t, ht⟩ := g1.kept
          show _ ∈ List.map _ (fetchFiles w get destination ls d1).1
          rw [← ht, List.map_append]
          exact List.mem_append_left _ (h2 rfl)
        · exact g2 h x hx
      · obtain ⟨x, hx, hn⟩ := g3 h
        exact ⟨x, List.mem_cons_of_mem _ hx, hn⟩

/-- C111, what holds: whatever the servers answers, and whether or not the run gets to its
end, the files that were there are as they were, each new one has the body of the answer for
a link with its name; a run that ends well leaves a file for every document, and one that
fails does so because a request fails or there is no directory.

What is missing: that the answer is the document, see `C111_false`. -/
theorem C111_saved_partial (w : Web) (get : Link → Option Answer) (page : Option Page) (place : Place) (destination : Str)
    (terms : Link) (before : Contents) :
    let r := fetchDocs w get page place destination terms before
    before <+: r.1 ∧
    (∀ n b, (n, b) ∈ r.1 → (n, b) ∈ before ∨
      n ∉ before.map (·.1) ∧ ∃ l, Wanted w terms page l ∧ ∃ a, n = fileName w destination l ∧ get l = some a ∧ b = a.body) ∧
    (r.2 = .done → page ≠ none ∧ ∀ l, Wanted w terms page l → fileName w destination l ∈ r.1.map (·.1)) ∧
    (r.2 = .requestError → page = none ∨ ∃ l, Wanted w terms page l ∧ get l = none) ∧
    (r.2 = .ioError ↔ place = .file ∨ place = .nothing ∧ destination = []) := by
  intro r
  simp only [show r = fetchDocs w get page place destination terms before from rfl]
  clear r
  unfold fetchDocs
  by_cases hp : place = .file ∨ place = .nothing ∧ destination = []
  · rw [if_pos hp]
    exact ⟨List.prefix_refl _, fun _ _ h => .inl h, fun h => (nomatch h), fun h => (nomatch h), fun _ => hp, fun _ => rfl⟩
  rw [if_neg hp]
  obtain ⟨h1, h2, h3⟩ := fetchFile_saved w get destination before terms
  generalize fetchFile w get destination before terms = z at h1 h2 h3
  obtain ⟨d1, ok⟩ := z
  simp only at h1 h2 h3
  have s1 : ∀ n b, (n, b) ∈ d1 → (n, b) ∈ before ∨ n ∉ before.map (·.1) ∧
      ∃ l, Wanted w terms page l ∧ ∃ a, n = fileName w destination l ∧ get l = some a ∧ b = a.body := by
    intro n b h
    rcases h1.source n b h with h | ⟨h0, l, hl, r⟩
    · exact .inl h
    · exact .inr ⟨h0, l, .inl (by simpa using hl), r⟩
  cases ok with
  | false =>
    exact ⟨h1.kept, s1, fun h => (nomatch h), fun _ => .inr ⟨terms, .inl rfl, h3 rfl⟩, fun h => (nomatch h), fun h => absurd h hp⟩
  | true =>
    cases page with
    | none =>
      exact ⟨h1.kept, s1, fun h => (nomatch h), fun _ => .inl rfl, fun h => (nomatch h), fun h => absurd h hp⟩
    | some tags =>
      have hm : ∀ l, l ∈ tags.foldl (fun ls t => handleStartTag w ls t.1 t.2) [] ↔ IsDocument w tags l := by
        intro l; rw [links_mem]; simp
      obtain ⟨g1, g2, g3⟩ := fetchFiles_saved w get destination (tags.foldl (fun ls t => handleStartTag w ls t.1 t.2) []) d1
      simp only
      generalize fetchFiles w get destination (tags.foldl (fun ls t => handleStartTag w ls t.1 t.2) []) d1 = z at g1 g2 g3
      obtain ⟨d2, ok2⟩ := z
      simp only at g1 g2 g3
      have s2 : ∀ n b, (n, b) ∈ d2 → (n, b) ∈ before ∨ n ∉ before.map (·.1) ∧
          ∃ l, Wanted w terms (some tags) l ∧ ∃ a, n = fileName w destination l ∧ get l = some a ∧ b = a.body := by
        intro n b h
        rcases (h1.trans g1).source n b h with h | ⟨h0, l, hl, r⟩
        · exact .inl h
        · refine .inr ⟨h0, l, ?_, r⟩
          rcases List.mem_append.1 hl with hl | hl
          · exact .inl (by simpa using hl)
          · exact .inr ⟨tags, rfl, (hm l).1 hl⟩
      cases ok2 with
      | true =>
        refine ⟨(h1.trans g1).kept, s2, fun _ => ⟨by simp, fun l hl => ?_⟩, fun h => (nomatch h), fun h => (nomatch h),
          fun h => absurd h hp⟩
        rcases hl with rfl | ⟨t, ht, hd⟩
        · obtain ⟨t, ht⟩ := g1.kept
          rw [← ht, List.map_append]
          exact List.mem_append_left _ (h2 rfl)
        · cases ht
          exact g2 rfl l ((hm l).2 hd)
      | false =>
        refine ⟨(h1.trans g1).kept, s2, fun h => (nomatch h), fun _ => .inr ?_, fun h => (nomatch h), fun h => absurd h hp⟩
        obtain ⟨l, hl, hn⟩ := g3 rfl
        exact ⟨l, .inr ⟨tags, rfl, (hm l).1 hl⟩, hn⟩

/-- C111 if the server has everything it is asked for. -/
theorem C111_available_partial (w : Web) (get : Link → Option Answer) (page : Option Page) (place : Place) (destination : Str)
    (terms : Link) (before : Contents) (hs : ∀ l a, Wanted w terms page l → get l = some a → a.status = 200) (n : Str) (b : Bytes)
    (h : (n, b) ∈ (fetchDocs w get page place destination terms before).1) (hn : (n, b) ∉ before) :
    ∃ l, Wanted w terms page l ∧ n = fileName w destination l ∧ get l = some ⟨200, b⟩ := by
  obtain ⟨-, h2, -⟩ := C111_saved_partial w get page place destination terms before
  rcases h2 n b h with h | ⟨-, l, hl, ⟨st, body⟩, e1, e2, e3⟩
  · exact absurd h hn
  · refine ⟨l, hl, e1, ?_⟩
    have := hs l _ hl e2
    simp only at this e3
    rw [e2, this, e3]

/-- One run of the tool after the other, each with whatever the server answers then. -/
def runs (w : Web) (destination : Str) (terms : Link) :
    List ((Link → Option Answer) × Option Page × Place) → Contents → Contents
  | [], d => d
  | r :: rs, d => runs w destination terms rs (fetchDocs w r.1 r.2.1 r.2.2 destination terms d).1

/-- What has been saved stays: later runs never replace it. -/
theorem C111_sticky (w : Web) (destination : Str) (terms : Link) (rs : List ((Link → Option Answer) × Option Page × Place))
    (d : Contents) : d <+: runs w destination terms rs d := by
  induction rs generalizing d with
  | nil => exact List.prefix_refl _
  | cons r rs ih => exact (C111_saved_partial w r.1 r.2.1 r.2.2 destination terms d).1.trans (ih _)

/-- A server that has lost a document: what it answers instead is a page that says so. -/
def notFound : Link → Option Answer := fun l => some (if l.path = "/x/a.pdf".toList then ⟨404, ascii "Not Found"⟩ else ⟨200, ascii "%PDF"⟩)

def indexPage : Page := [("a".toList, [("href".toList, some "/x/a.pdf".toList)])]

/-- C111 is false: the status of an answer is not looked at, so that an error page is saved
under the name of the document. -/
theorem C111_false : ¬ C111_claim := by
  intro h
  obtain ⟨l, h1, h2, h3⟩ := h exampleWeb notFound (some indexPage) .directory "docs".toList ⟨"https".toList, ['h'], "/t.pdf".toList, []⟩
    [] "docs/a.pdf".toList (ascii "Not Found") (by decide +kernel) (by simp)
  unfold notFound at h3
  split at h3
  · cases h3
  · injection h3 with h3
    exact absurd h3 (by decide)

/-- And it stays: with a server that has the document again, too. -/
example :
    let good : Link → Option Answer := fun _ => some ⟨200, ascii "%PDF"⟩
    let terms : Link := ⟨"https".toList, ['h'], "/t.pdf".toList, []⟩
    (fetchDocs exampleWeb notFound (some indexPage) .nothing "docs".toList terms []).2 = .done ∧
    runs exampleWeb "docs".toList terms [(notFound, some indexPage, .nothing), (good, some indexPage, .directory)] [] =
      [("docs/t.pdf".toList, ascii "%PDF"), ("docs/a.pdf".toList, ascii "Not Found")] ∧
    -- a request that fails is made again
    runs exampleWeb "docs".toList terms
      [(fun l => if l.path = "/x/a.pdf".toList then none else good l, some indexPage, .nothing), (good, some indexPage, .directory)] [] =
      [("docs/t.pdf".toList, ascii "%PDF"), ("docs/a.pdf".toList, ascii "%PDF")] := by decide +kernel

/-! ## C140 -/

/-- C140: after a run that ends well each document is there, under its name and with the
contents that the server has for it. -/
def C140_claim : Prop :=
  ∀ (w : Web) (get : Link → Option Answer) (page : Option Page) (place : Place) (destination : Str) (terms : Link),
    (fetchDocs w get page place destination terms []).2 = .done → ∀ l, Wanted w terms page l →
    ∃ a, get l = some a ∧ (fileName w destination l, a.body) ∈ (fetchDocs w get page place destination terms []).1

/-- C140 for documents whose names differ, and that are not there already. What is missing: two documents of
the same name, see `C140_false`. -/
theorem C140_partial (w : Web) (get : Link → Option Answer) (page : Option Page) (place : Place) (destination : Str)
    (terms : Link) (before : Contents) (hd : (fetchDocs w get page place destination terms before).2 = .done) (l : Link)
    (hl : Wanted w terms page l) (hb : fileName w destination l ∉ before.map (·.1))
    (hn : ∀ l', Wanted w terms page l' → fileName w destination l' = fileName w destination l → l' = l) :
    ∃ a, get l = some a ∧ (fileName w destination l, a.body) ∈ (fetchDocs w get page place destination terms before).1 := by
  obtain ⟨-, h2, h3, -⟩ := C111_saved_partial w get page place destination terms before
  obtain ⟨⟨n, b⟩, hm, he⟩ := List.mem_map.1 ((h3 hd).2 l hl)
  simp only at he
  subst he
  rcases h2 _ b hm with h | ⟨-, l', hw, a, h4, h5, h6⟩
  · exact absurd (List.mem_map.2 ⟨_, h, rfl⟩) hb
  · have := hn l' hw h4.symm
    subst this
    exact ⟨a, h5, h6 ▸ hm⟩

/-- Two documents of the same name in two directories. -/
def twinPage : Page :=
  [("a".toList, [("href".toList, some "/x/a.pdf".toList)]), ("a".toList, [("href".toList, some "/y/a.pdf".toList)])]

/-- Their contents. -/
def twinServer : Link → Option Answer := fun l => some ⟨200, if l.path = "/y/a.pdf".toList then ascii "%PDF-y" else ascii "%PDF-x"⟩

/-- C140 is false: the second of them is skipped. -/
theorem C140_false : ¬ C140_claim := by
  intro h
  obtain ⟨a, h1, h2⟩ := h exampleWeb twinServer (some twinPage) .nothing "docs".toList ⟨"https".toList, ['h'], "/t.pdf".toList, []⟩
    (by decide +kernel) (exampleWeb.parse (some "/y/a.pdf".toList)) (.inr ⟨_, rfl, by
      exact ⟨"a".toList, [], "href".toList, some "/y/a.pdf".toList, [], by simp [twinPage], by decide, by simp, by decide, rfl,
        by decide, by decide, "/y/a".toList, by decide⟩⟩)
  injection h1 with h1
  subst h1
  exact absurd h2 (by decide +kernel)

/-- With the first of them alone all is well, and of the two only the first is there. -/
example :
    let terms : Link := ⟨"https".toList, ['h'], "/t.pdf".toList, []⟩
    fetchDocs exampleWeb twinServer (some indexPage) .nothing "docs".toList terms [] =
      ([("docs/t.pdf".toList, ascii "%PDF-x"), ("docs/a.pdf".toList, ascii "%PDF-x")], .done) ∧
    fetchDocs exampleWeb twinServer (some twinPage) .nothing "docs".toList terms [] =
      ([("docs/t.pdf".toList, ascii "%PDF-x"), ("docs/a.pdf".toList, ascii "%PDF-x")], .done) := by decide +kernel

/-- The files of the two models. -/
def SameNames (before : List Str) (d : Contents) (k : Disk) : Prop :=
  d.map (·.1) = before ++ k.written ∧ ∀ n, n ∈ k.exists_ ↔ n ∈ d.map (·.1)

theorem fetchFile_names (w : Web) (get : Link → Option Answer) (destination : Str) (before : List Str) (d : Contents) (k : Disk)
    (h : SameNames before d k) (l : Link) (ho : (fetchFile w get destination d l).2 = true) :
    SameNames before (fetchFile w get destination d l).1 (downloadFile w destination k l) := by
  obtain ⟨h1, h2⟩ := h
  unfold fetchFile at ho ⊢
  unfold downloadFile
  simp only at ho ⊢
  by_cases hm : fileName w destination l ∈ d.map (·.1)
  · rw [if_pos hm, if_pos ((h2 _).2 hm)]
    exact ⟨h1, h2⟩
  · rw [if_neg hm] at ho ⊢
    rw [if_neg (fun g => hm ((h2 _).1 g))]
    cases hg : get l with
    | none => rw [hg] at ho; cases ho
    | some a =>
      refine ⟨by simp [h1], fun n => ?_⟩
      simp only [List.mem_cons, h2 n, List.map_append, List.mem_append, List.map_cons, List.map_nil, List.not_mem_nil, or_false]
      exact Or.comm

theorem fetchFiles_names (w : Web) (get : Link → Option Answer) (destination : Str) (before : List Str) : ∀ (ls : List Link)
    (d : Contents) (k : Disk), SameNames before d k → (fetchFiles w get destination ls d).2 = true →
    SameNames before (fetchFiles w get destination ls d).1 (ls.foldl (downloadFile w destination) k) := by
  intro ls
  induction ls with
  | nil => intro d k h _; exact h
  | cons l ls ih =>
    intro d k h ho
    have hs := fetchFile_names w get destination before d k h l
    unfold fetchFiles at ho ⊢
    generalize fetchFile w get destination d l = z at ho hs
    obtain ⟨d1, ok⟩ := z
    cases ok with
    | false => cases ho
    | true => exact ih d1 _ (hs rfl) ho

/-- The names are those of C85. -/
theorem C111_names (w : Web) (get : Link → Option Answer) (tags : Page) (place : Place) (destination : Str) (terms : Link)
    (before : Contents) (h : (fetchDocs w get (some tags) place destination terms before).2 = .done) :
    (fetchDocs w get (some tags) place destination terms before).1.map (·.1) =
      before.map (·.1) ++ (downloadDocs w destination terms tags ⟨before.map (·.1), []⟩).written := by
  have hs := fetchFile_names w get destination (before.map (·.1)) before ⟨before.map (·.1), []⟩ ⟨by simp, fun n => Iff.rfl⟩ terms
  unfold fetchDocs at h ⊢
  unfold downloadDocs
  by_cases hp : place = .file ∨ place = .nothing ∧ destination = []
  · rw [if_pos hp] at h; cases h
  rw [if_neg hp] at h ⊢
  generalize fetchFile w get destination before terms = z at h hs
  obtain ⟨d1, ok⟩ := z
  cases ok with
  | false => cases h
  | true =>
    have hf := fetchFiles_names w get destination (before.map (·.1)) (tags.foldl (fun ls t => handleStartTag w ls t.1 t.2) []) d1 _
      (hs rfl)
    simp only at h ⊢
    generalize fetchFiles w get destination (tags.foldl (fun ls t => handleStartTag w ls t.1 t.2) []) d1 = z at h hf
    obtain ⟨d2, ok2⟩ := z
    cases ok2 with
    | false => cases h
    | true => exact (hf rfl).1

end CBus.Props
