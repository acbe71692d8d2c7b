import Verif.Model.Tools
import Verif.Props.Decoder

/-! # C84-C86: command-line tools -/

namespace CBus.Props
open CBus CBus.Tools CBus.Spec

/-! ## C84: decode_packet -/

/-- The claim: the tool prints what `decode_packet` makes of its argument. -/
def C84_claim : Prop :=
  ∀ (arg : String) (checksum strict server : Bool) (p : Packet) (n : Nat),
    decodePacket (ascii arg) checksum strict server = .ok (some p, n) →
    decodeMain arg.toList checksum strict server = .printed (some p)

/-- C84: whatever the argument and the options, the tool refuses its command line. -/
theorem C84_refused (arg : Str) (checksum strict server : Bool) :
    decodeMain arg checksum strict server = .usage := rfl

/-- C84 is false. -/
theorem C84_false : ¬ C84_claim := by
  intro h
  have := h "g." true true true (.confirmation [0x67] true) 2 (by decide +kernel)
  rw [C84_refused] at this
  cases this

/-- C84, the part that holds: what `pretty_packet` prints. Without a complete message it
prints `None`; with one, nothing after it matters; and a message from the PCI is
printed only for a line with a correct checksum. Missing: that the command line gets
there. -/
theorem C84_pretty_partial (data : Bytes) (checksum strict : Bool) :
    (¬ PciComplete data → prettyPacket data checksum strict true = .printed none) ∧
    (¬ ClientComplete data → prettyPacket data checksum strict false = .printed none) ∧
    (PciComplete data → ∀ more, prettyPacket (data ++ more) checksum strict true = prettyPacket data checksum strict true) ∧
    (ClientComplete data → ∀ more, prettyPacket (data ++ more) checksum strict false =
      prettyPacket data checksum strict false) ∧
    (∀ p, prettyPacket data true true true = .printed (some p) → isMessage p = true →
      ∃ m rest, data = b16encode m ++ 0x0d :: 0x0a :: rest ∧ SumsToZero m) := by
  refine ⟨?_, ?_, ?_, ?_, ?_⟩
  · intro h
    unfold prettyPacket
    rw [(C34_pci data checksum strict).1 h]
  · intro h
    unfold prettyPacket
    rw [(C34_client data checksum strict).1 h]
  · intro h more
    unfold prettyPacket
    rw [C35_prefix_stable]
    intro e
    exact absurd ((C34_pci data checksum strict).2 h _ _ e) (by decide)
  · intro h more
    unfold prettyPacket
    rw [C35_prefix_stable]
    intro e
    exact absurd ((C34_client data checksum strict).2 h _ _ e) (by decide)
  · intro p h hp
    unfold prettyPacket at h
    split at h
    · rename_i q n hq
      injection h with h
      subst h
      exact C32_pci_only_valid data p n hq hp
    · cases h

/-- A line that is not terminated, which is what one would type. -/
example : prettyPacket (ascii "05003800790446") true true true = .printed none := by
  unfold prettyPacket
  rw [show decodePacket (ascii "05003800790446") true true true = .ok (none, 0) by decide +kernel]

/-! ## C85: fetch_protocol_docs -/

/-- `link` is a document that the page links to: an `a` element whose first `href`
leads, over HTTP or HTTPS, to a PDF file on the same server. -/
def IsDocument (w : Web) (tags : List (Str × List (Str × Option Str))) (link : Link) : Prop :=
  ∃ tag pre k v post, (tag, pre ++ (k, v) :: post) ∈ tags ∧ w.lower tag = "a".toList ∧
    (∀ kv ∈ pre, w.lower kv.1 ≠ "href".toList) ∧ w.lower k = "href".toList ∧ link = w.parse v ∧
    (link.scheme = "http".toList ∨ link.scheme = "https".toList) ∧ link.netloc = w.netloc ∧
    ∃ stem, link.path = stem ++ ".pdf".toList

theorem find_split {α : Type} (p : α → Bool) (l : List α) (x : α) (h : l.find? p = some x) :
    ∃ pre post, l = pre ++ x :: post ∧ p x = true ∧ ∀ y ∈ pre, p y = false := by
  induction l with
  | nil => cases h
  | cons a l ih =>
    rw [List.find?_cons] at h
    cases ha : p a with
    | true =>
      rw [ha] at h
      injection h with h
      subst h
      exact ⟨[], l, rfl, ha, by simp⟩
    | false =>
      rw [ha] at h
      obtain ⟨pre, post, h1, h2, h3⟩ := ih h
      refine ⟨a :: pre, post, by rw [h1]; rfl, h2, ?_⟩
      intro y hy
      rcases List.mem_cons.1 hy with rfl | hy
      · exact ha
      · exact h3 y hy

theorem find_of_split {α : Type} (p : α → Bool) (pre post : List α) (x : α) (hx : p x = true)
    (h : ∀ y ∈ pre, p y = false) : (pre ++ x :: post).find? p = some x := by
  induction pre with
  | nil => simp [hx]
  | cons a pre ih =>
    rw [List.cons_append, List.find?_cons, h a List.mem_cons_self]
    exact ih fun y hy => h y (List.mem_cons_of_mem _ hy)

theorem handleStartTag_mem (w : Web) (links : List Link) (t : Str × List (Str × Option Str)) (link : Link) :
    link ∈ handleStartTag w links t.1 t.2 ↔ link ∈ links ∨ IsDocument w [t] link := by
  obtain ⟨tag, attrs⟩ := t
  have suffix : ∀ p : Str, Str.endsWith p ".pdf".toList = true ↔ ∃ stem, p = stem ++ ".pdf".toList := by
    intro p
    unfold Str.endsWith
    rw [List.isSuffixOf_iff_suffix]
    exact ⟨fun ⟨s, h⟩ => ⟨s, h.symm⟩, fun ⟨s, h⟩ => ⟨s, h.symm⟩⟩
  simp only [handleStartTag]
  by_cases ht : w.lower tag = "a".toList
  · rw [if_pos ht]
    cases hf : attrs.find? fun kv => decide (w.lower kv.1 = "href".toList) with
    | none =>
      refine ⟨.inl, ?_⟩
      rintro (h | ⟨tag', pre, k, v, post, h1, -, h3, h4, -⟩)
      · exact h
      · simp only [List.mem_singleton, Prod.mk.injEq] at h1
        obtain ⟨rfl, rfl⟩ := h1
        rw [find_of_split _ _ _ _ (by simpa using h4) (fun y hy => by simpa using h3 y hy)] at hf
        cases hf
    | some kv =>
      obtain ⟨k, v⟩ := kv
      obtain ⟨pre, post, h1, h2, h3⟩ := find_split _ _ _ hf
      simp only
      by_cases hc : ((w.parse v).scheme = "http".toList ∨ (w.parse v).scheme = "https".toList) ∧
          (w.parse v).netloc = w.netloc ∧ Str.endsWith (w.parse v).path ".pdf".toList = true
      · rw [if_pos hc, List.mem_append, List.mem_singleton]
        constructor
        · rintro (h | h)
          · exact .inl h
          · subst h
            refine .inr ⟨tag, pre, k, v, post, by rw [h1]; simp, ht, fun y hy => by simpa using h3 y hy,
              by simpa using h2, rfl, hc.1, hc.2.1, (suffix _).1 hc.2.2⟩
        · rintro (h | ⟨tag', pre', k', v', post', g1, -, g3, g4, g5, -⟩)
          · exact .inl h
          · simp only [List.mem_singleton, Prod.mk.injEq] at g1
            obtain ⟨rfl, rfl⟩ := g1
            rw [find_of_split _ _ _ _ (by simpa using g4) (fun y hy => by simpa using g3 y hy)] at hf
            injection hf with hf
            injection hf with _ hv
            subst hv
            exact .inr g5
      · rw [if_neg hc]
        refine ⟨.inl, ?_⟩
        rintro (h | ⟨tag', pre', k', v', post', g1, -, g3, g4, g5, g6, g7, g8⟩)
        · exact h
        · simp only [List.mem_singleton, Prod.mk.injEq] at g1
          obtain ⟨rfl, rfl⟩ := g1
          rw [find_of_split _ _ _ _ (by simpa using g4) (fun y hy => by simpa using g3 y hy)] at hf
          injection hf with hf
          injection hf with _ hv
          subst hv
          subst g5
          exact absurd ⟨g6, g7, (suffix _).2 g8⟩ hc
  · rw [if_neg ht]
    refine ⟨.inl, ?_⟩
    rintro (h | ⟨tag', pre, k, v, post, h1, h2, -⟩)
    · exact h
    · simp only [List.mem_singleton, Prod.mk.injEq] at h1
      obtain ⟨rfl, -⟩ := h1
      exact absurd h2 ht

theorem links_mem (w : Web) (tags : List (Str × List (Str × Option Str))) (link : Link) :
    ∀ ls, link ∈ tags.foldl (fun ls t => handleStartTag w ls t.1 t.2) ls ↔ link ∈ ls ∨ IsDocument w tags link := by
  induction tags with
  | nil => intro ls; simp [IsDocument]
  | cons t tags ih =>
    intro ls
    rw [List.foldl_cons, ih, handleStartTag_mem, or_assoc]
    have : IsDocument w (t :: tags) link ↔ IsDocument w [t] link ∨ IsDocument w tags link := by
      unfold IsDocument
      constructor
      · rintro ⟨tag, pre, k, v, post, h1, h2⟩
        rcases List.mem_cons.1 h1 with h1 | h1
        · exact .inl ⟨tag, pre, k, v, post, by rw [h1]; exact List.mem_singleton_self _, h2⟩
        · exact .inr ⟨tag, pre, k, v, post, h1, h2⟩
      · rintro (⟨tag, pre, k, v, post, h1, h2⟩ | ⟨tag, pre, k, v, post, h1, h2⟩)
        · exact ⟨tag, pre, k, v, post, by rw [List.mem_singleton.1 h1]; exact List.mem_cons_self, h2⟩
        · exact ⟨tag, pre, k, v, post, List.mem_cons_of_mem _ h1, h2⟩
    rw [this]

/-- What the disk looks like after downloading `links`, given what existed at first. -/
structure Downloaded (w : Web) (destination : Str) (before : List Str) (links : List Link) (d : Disk) : Prop where
  nodup : d.written.Nodup
  fresh : ∀ n ∈ d.written, n ∉ before
  exists_iff : ∀ n, n ∈ d.exists_ ↔ n ∈ before ∨ n ∈ d.written
  written_iff : ∀ n, n ∈ d.written ↔ n ∉ before ∧ ∃ l ∈ links, n = fileName w destination l

theorem downloadFile_step (w : Web) (destination : Str) (before : List Str) (links : List Link) (d : Disk)
    (h : Downloaded w destination before links d) (l : Link) :
    Downloaded w destination before (links ++ [l]) (downloadFile w destination d l) := by
  obtain ⟨h1, h2, h3, h4⟩ := h
  simp only [downloadFile]
  split
  · rename_i he
    refine ⟨h1, h2, h3, fun n => ?_⟩
    rw [h4]
    constructor
    · rintro ⟨a, l', b, c⟩
      exact ⟨a, l', List.mem_append_left _ b, c⟩
    · rintro ⟨a, l', b, c⟩
      rcases List.mem_append.1 b with b | b
      · exact ⟨a, l', b, c⟩
      · rw [List.mem_singleton] at b
        subst b
        rw [← c, h3] at he
        rcases he with he | he
        · exact absurd he a
        · exact (h4 n).1 he
  · rename_i he
    have hb : fileName w destination l ∉ before := fun h => he ((h3 _).2 (.inl h))
    have hw : fileName w destination l ∉ d.written := fun h => he ((h3 _).2 (.inr h))
    refine ⟨?_, ?_, ?_, ?_⟩
    · rw [List.nodup_append]
      refine ⟨h1, by simp, ?_⟩
      intro a ha b hb' hab
      rw [List.mem_singleton] at hb'
      subst hb' hab
      exact hw ha
    · intro n hn
      rcases List.mem_append.1 hn with hn | hn
      · exact h2 n hn
      · rw [List.mem_singleton] at hn; subst hn; exact hb
    · intro n
      simp only [List.mem_cons, List.mem_append, List.not_mem_nil, or_false, h3]
      constructor
      · rintro (h | h | h)
        · exact .inr (.inr h)
        · exact .inl h
        · exact .inr (.inl h)
      · rintro (h | h | h)
        · exact .inr (.inl h)
        · exact .inr (.inr h)
        · exact .inl h
    · intro n
      simp only [List.mem_append, List.mem_singleton, h4]
      constructor
      · rintro (⟨a, l', b, c⟩ | h)
        · exact ⟨a, l', .inl b, c⟩
        · subst h; exact ⟨hb, l, .inr rfl, rfl⟩
      · rintro ⟨a, l', b | b, c⟩
        · exact .inl ⟨a, l', b, c⟩
        · subst b; exact .inr c

theorem downloadDocs_result (w : Web) (destination : Str) (terms : Link)
    (tags : List (Str × List (Str × Option Str))) (before : List Str) :
    ∃ links, (∀ l, l ∈ links ↔ l = terms ∨ IsDocument w tags l) ∧
      Downloaded w destination before links (downloadDocs w destination terms tags ⟨before, []⟩) := by
  refine ⟨terms :: tags.foldl (fun ls t => handleStartTag w ls t.1 t.2) [], ?_, ?_⟩
  · intro l
    rw [List.mem_cons, links_mem]
    simp
  · have key : ∀ (ls done : List Link) (d : Disk), Downloaded w destination before done d →
        Downloaded w destination before (done ++ ls) (ls.foldl (downloadFile w destination) d) := by
      intro ls
      induction ls with
      | nil => intro done d h; rw [List.append_nil]; exact h
      | cons l ls ih =>
        intro done d h
        have := ih _ _ (downloadFile_step w destination before done d h l)
        rw [List.append_assoc] at this
        exact this
    have h0 : Downloaded w destination before [] ⟨before, []⟩ := ⟨by simp, by simp, by simp, by simp⟩
    exact key _ [terms] _ (downloadFile_step w destination before [] _ h0 terms)

/-- C85: whatever the index page, no file that existed is written and no file is
written twice. -/
theorem C85_no_overwrite (w : Web) (destination : Str) (terms : Link)
    (tags : List (Str × List (Str × Option Str))) (before : List Str) :
    (downloadDocs w destination terms tags ⟨before, []⟩).written.Nodup ∧
    ∀ n ∈ before, n ∉ (downloadDocs w destination terms tags ⟨before, []⟩).written := by
  obtain ⟨links, -, h⟩ := downloadDocs_result w destination terms tags before
  exact ⟨h.nodup, fun n hn hw => h.fresh n hw hn⟩

/-- C85: what is written belongs to the terms or to a document of the page, and
afterwards there is a file for each of them. -/
theorem C85_complete (w : Web) (destination : Str) (terms : Link)
    (tags : List (Str × List (Str × Option Str))) (before : List Str) :
    (∀ n ∈ (downloadDocs w destination terms tags ⟨before, []⟩).written,
      ∃ l, (l = terms ∨ IsDocument w tags l) ∧ n = fileName w destination l) ∧
    (∀ l, l = terms ∨ IsDocument w tags l →
      fileName w destination l ∈ (downloadDocs w destination terms tags ⟨before, []⟩).exists_) := by
  obtain ⟨links, hl, h⟩ := downloadDocs_result w destination terms tags before
  constructor
  · intro n hn
    obtain ⟨-, l, h1, h2⟩ := (h.written_iff n).1 hn
    exact ⟨l, (hl l).1 h1, h2⟩
  · intro l h1
    by_cases hb : fileName w destination l ∈ before
    · exact (h.exists_iff _).2 (.inl hb)
    · exact (h.exists_iff _).2 (.inr ((h.written_iff _).2 ⟨hb, l, (hl l).2 h1, rfl⟩))

/-- A server with a simple way of writing links. -/
def exampleWeb : Web where
  parse h :=
    match h with
    | some s => if Str.startsWith s "http:".toList then ⟨"http".toList, s.drop 5, [], []⟩ else ⟨"https".toList, ['h'], s, []⟩
    | none => ⟨"https".toList, ['h'], [], []⟩
  lower s := s.map Char.toLower
  unquote s :=
    match s with
    | '%' :: '2' :: 'F' :: r => '/' :: r
    | _ => s
  netloc := ['h']
  ascii_lower _ _ := rfl
  unquote_plain s h := by
    split
    · simp at h
    · rfl
  unquote_slash s _ := rfl

example : downloadDocs exampleWeb "docs".toList ⟨"https".toList, ['h'], "/t.pdf".toList, []⟩
    [("A".toList, [("class".toList, none), ("HREF".toList, some "/x/1.pdf".toList)]),
     ("a".toList, [("href".toList, some "/index.html".toList)]),
     ("a".toList, [("href".toList, some "/y/1.pdf".toList)]),
     ("img".toList, [("href".toList, some "/2.pdf".toList)]),
     ("a".toList, [("href".toList, some "/3.pdf".toList)])]
    ⟨["docs/3.pdf".toList], []⟩ =
    ⟨["docs/1.pdf".toList, "docs/t.pdf".toList, "docs/3.pdf".toList], ["docs/t.pdf".toList, "docs/1.pdf".toList]⟩ := by
  decide +kernel

/-! ## C86 -/

/-- The claim: files are written only directly inside the destination. -/
def C86_claim : Prop :=
  ∀ (w : Web) (destination : Str) (terms : Link) (tags : List (Str × List (Str × Option Str))) (before : List Str),
    destination ≠ [] → destination.getLast? ≠ some '/' →
    ∀ n ∈ (downloadDocs w destination terms tags ⟨before, []⟩).written,
      ∃ name, '/' ∉ name ∧ n = destination ++ '/' :: name

/-- C86 is false: the server can have a file written anywhere. -/
theorem C86_false : ¬ C86_claim := by
  intro h
  obtain ⟨name, -, h2⟩ := h exampleWeb "docs".toList ⟨"https".toList, ['h'], "/t.pdf".toList, []⟩
    [("a".toList, [("href".toList, some "/x/%2Fetc.pdf".toList)])] [] (by decide) (by decide) "/etc.pdf".toList
    (by decide +kernel)
  have : ("/etc.pdf".toList).head? = ("docs".toList ++ '/' :: name).head? := by rw [h2]
  revert this
  simp

theorem lastPart_no_slash (path : Str) : '/' ∉ lastPart path := by
  unfold lastPart
  rw [List.mem_reverse]
  intro h
  have : ∀ l : Str, ∀ c ∈ l.takeWhile (fun c => decide (c ≠ '/')), c ≠ '/' := by
    intro l
    induction l with
    | nil => intro c hc; cases hc
    | cons a l ih =>
      intro c hc
      rw [List.takeWhile_cons] at hc
      split at hc
      · rename_i ha
        rcases List.mem_cons.1 hc with rfl | hc
        · simpa using ha
        · exact ih c hc
      · cases hc
  exact this _ _ h rfl

/-- C86: the server alone decides: for any name there is a link that makes the tool
write the file of that absolute path. -/
theorem C86_anywhere (w : Web) (destination name : Str) (link : Link) (hn : '%' ∉ name) (hs : '/' ∉ name)
    (hp : link.path = "/%2F".toList ++ name) : fileName w destination link = '/' :: name := by
  have hl : lastPart link.path = "%2F".toList ++ name := by
    have : ∀ l : Str, '/' ∉ l → lastPart ('/' :: l) = l := by
      intro l hl
      unfold lastPart
      rw [List.reverse_cons, List.takeWhile_append_of_pos]
      · simp
      · intro c hc
        simp only [ne_eq, decide_eq_true_eq]
        rintro rfl
        exact hl (List.mem_reverse.1 hc)
    rw [hp]
    refine this ("%2F".toList ++ name) ?_
    intro h
    rcases List.mem_append.1 h with h | h
    · revert h; decide
    · exact hs h
  unfold fileName
  rw [hl, w.unquote_slash name hn]
  unfold joinPath
  rw [if_pos (by simp [Str.startsWith, List.isPrefixOf])]

/-- How the files of a directory begin: with its name and a slash, unless there is one or there is no
name. -/
def within (destination : Str) : Str :=
  if destination = [] ∨ destination.getLast? = some '/' then destination else destination ++ ['/']

/-- C86, the part that holds: if no link has an encoded slash (or percent sign) in its
name, everything is written directly inside the destination. Missing: links that
have one, for which it is false. -/
theorem C86_inside_partial (w : Web) (destination : Str) (terms : Link)
    (tags : List (Str × List (Str × Option Str))) (before : List Str)
    (hl : ∀ l, l = terms ∨ IsDocument w tags l → '/' ∉ w.unquote (lastPart l.path)) :
    ∀ n ∈ (downloadDocs w destination terms tags ⟨before, []⟩).written,
      ∃ name, '/' ∉ name ∧ n = within destination ++ name := by
  intro n hn
  obtain ⟨l, h1, h2⟩ := (C85_complete w destination terms tags before).1 n hn
  refine ⟨w.unquote (lastPart l.path), hl l h1, ?_⟩
  rw [h2]
  unfold fileName joinPath within
  rw [if_neg]
  · have he : Str.endsWith destination ['/'] = true ↔ destination.getLast? = some '/' := by
      unfold Str.endsWith
      rw [List.isSuffixOf_iff_suffix]
      constructor
      · rintro ⟨t, ht⟩
        rw [← ht]
        simp
      · intro h
        obtain ⟨t, ht⟩ := List.getLast?_eq_some_iff.1 h
        exact ⟨t, ht.symm⟩
    by_cases h : destination = [] ∨ destination.getLast? = some '/'
    · rw [if_pos h, if_pos (h.imp id he.2)]
    · rw [if_neg h, if_neg (fun h' => h (h'.imp id he.1))]
      simp
  · intro h
    refine hl l h1 ?_
    generalize w.unquote (lastPart l.path) = s at h ⊢
    unfold Str.startsWith at h
    cases s with
    | nil => simp [List.isPrefixOf] at h
    | cons c s =>
      simp [List.isPrefixOf] at h
      exact h ▸ List.mem_cons_self

/-- C86: which is so in particular for links without percent signs. -/
theorem C86_plain (w : Web) (l : Link) (h : '%' ∉ lastPart l.path) : '/' ∉ w.unquote (lastPart l.path) := by
  rw [w.unquote_plain _ h]
  exact lastPart_no_slash _

/-- A document whose link is three directories down, and the same with a slash behind the destination. -/
example : (downloadDocs exampleWeb "docs".toList ⟨"https".toList, ['h'], "/t.pdf".toList, []⟩
      [("a".toList, [("href".toList, some "/x/y/z/a.pdf".toList)])] ⟨[], []⟩).written =
      ["docs/t.pdf".toList, "docs/a.pdf".toList] ∧
    (downloadDocs exampleWeb "docs/".toList ⟨"https".toList, ['h'], "/t.pdf".toList, []⟩
      [("a".toList, [("href".toList, some "/x/y/z/a.pdf".toList)])] ⟨[], []⟩).written =
      ["docs/t.pdf".toList, "docs/a.pdf".toList] := by decide +kernel

end CBus.Props
