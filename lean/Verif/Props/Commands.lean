import Verif.Model.Commands
import Verif.Lemmas.ArgGrammar
import Verif.Spec.Manual

/-! # C112: the command lines of the tools -/

namespace CBus.Props
open CBus CBus.Cbz CBus.Commands CBus.Spec
open CBus.ArgParse (readArgs readWords takeAll takeOne isDashes classifyAll)

variable {δ : Type} [DecidableEq δ]

/-- What the last of an option says; `none` if it is not given. -/
def Last (d : δ) (is : List (δ × Str)) : Option Str → Prop
  | none => ∀ v, (d, v) ∉ is
  | some v => ∃ a b, is = a ++ (d, v) :: b ∧ ∀ v', (d, v') ∉ b

theorem last_iff (d : δ) (is : List (δ × Str)) (o : Option Str) : last d is = o ↔ Last d is o := by
  have fwd : ∀ o, Last d is o → last d is = o := by
    rintro (_ | v) h
    · have : is.filter (·.1 = d) = [] := by
        rw [List.filter_eq_nil_iff]
        rintro ⟨d', v⟩ hm e
        simp only [decide_eq_true_eq] at e
        subst e
        exact h v hm
      simp [last, this]
    · obtain ⟨a, b, rfl, hb⟩ := h
      have : b.filter (·.1 = d) = [] := by
        rw [List.filter_eq_nil_iff]
        rintro ⟨d', v⟩ hm e
        simp only [decide_eq_true_eq] at e
        subst e
        exact hb v hm
      simp [last, List.filter_append, this]
  refine ⟨?_, fwd o⟩
  rintro rfl
  have : ∃ o, Last d is o := by
    clear fwd
    induction is with
    | nil => exact ⟨none, by simp [Last]⟩
    | cons i is ih =>
      rcases ih with ⟨_ | v, ho⟩
      · by_cases h : i.1 = d
        · obtain ⟨d', v⟩ := i
          simp only at h
          subst h
          exact ⟨some v, [], is, rfl, ho⟩
        · refine ⟨none, fun v hv => ?_⟩
          rcases List.mem_cons.1 hv with rfl | hv
          · exact h rfl
          · exact ho v hv
      · obtain ⟨a, b, e, hb⟩ := ho
        exact ⟨some v, i :: a, b, by rw [e]; rfl, hb⟩
  obtain ⟨o, ho⟩ := this
  rw [fwd o ho]
  exact ho

theorem given_iff (d : δ) (is : List (δ × Str)) : given d is = true ↔ ∃ v, (d, v) ∈ is := by
  simp only [given, List.any_eq_true, decide_eq_true_eq]
  constructor
  · rintro ⟨⟨d', v⟩, h, rfl⟩
    exact ⟨v, h⟩
  · rintro ⟨v, h⟩
    exact ⟨(d, v), h, rfl⟩

/-! ## dump_labels -/

theorem dump_table : Table dumpOptions := by constructor <;> decide +kernel

theorem lastInt_some (u : UniTable) (l : List Str) : ∀ (x r : Option Int), lastInt u l x = some r ↔
    (∀ s ∈ l, ∃ i, u.intOf s = .ok i) ∧
    (l = [] ∧ r = x ∨ ∃ s i, l.getLast? = some s ∧ u.intOf s = .ok i ∧ r = some i) := by
  induction l with
  | nil =>
    intro x r
    simp [lastInt, eq_comm]
  | cons s l ih =>
    intro x r
    unfold lastInt
    cases h : u.intOf s with
    | error e =>
      simp only [reduceCtorEq, false_iff, not_and]
      intro h'
      obtain ⟨i, hi⟩ := h' s (by simp)
      rw [h] at hi
      cases hi
    | ok i =>
      simp only
      rw [ih]
      constructor
      · rintro ⟨h1, h2⟩
        refine ⟨fun t ht => ?_, .inr ?_⟩
        · rcases List.mem_cons.1 ht with rfl | ht
          · exact ⟨i, h⟩
          · exact h1 t ht
        · rcases h2 with ⟨rfl, rfl⟩ | ⟨t, j, h2, h3, h4⟩
          · exact ⟨s, i, rfl, h, rfl⟩
          · exact ⟨t, j, by rw [List.getLast?_cons, h2]; rfl, h3, h4⟩
      · rintro ⟨h1, h2⟩
        refine ⟨fun t ht => h1 t (by simp [ht]), ?_⟩
        rcases h2 with ⟨h2, -⟩ | ⟨t, j, h2, h3, h4⟩
        · cases h2
        · rcases l with _ | ⟨y, l⟩
          · simp only [List.getLast?_singleton, Option.some.injEq] at h2
            subst h2
            rw [h] at h3
            injection h3 with h3
            exact .inl ⟨rfl, by rw [h4, h3]⟩
          · rw [List.getLast?_cons_cons] at h2
            exact .inr ⟨t, j, h2, h3, h4⟩

theorem getLast_last (d : δ) (is : List (δ × Str)) : ((is.filter (·.1 = d)).map (·.2)).getLast? = last d is := by
  simp [last, List.getLast?_map]

theorem filter_given (d : δ) (is : List (δ × Str)) (v : Str) :
    v ∈ (is.filter (·.1 = d)).map (·.2) ↔ (d, v) ∈ is := by
  simp only [List.mem_map, List.mem_filter, decide_eq_true_eq]
  constructor
  · rintro ⟨⟨d', v'⟩, ⟨h, rfl⟩, rfl⟩
    exact h
  · intro h
    exact ⟨(d, v), ⟨h, rfl⟩, rfl⟩

theorem dump_names : names dumpManual = dumpOptions := by decide +kernel

theorem dump_flags : flags dumpManual = (· == .help) := by funext d; cases d <;> rfl

/-- C112, `dump_labels`: every command line. It is accepted iff it is made of options and one
file, without `--help`, and every `--pretty` is a number; the last of each option counts. -/
theorem C112_dump (u : UniTable) (argv : List Str) (a : DumpArgs) : dumpArgs u argv = some a ↔
    ∃ is, Line (names dumpManual) (flags dumpManual) u argv is (some a.input) ∧ (∀ v, (.help, v) ∉ is) ∧ Last .output is a.output ∧
      (∀ v, (.pretty, v) ∈ is → ∃ i, u.intOf v = .ok i) ∧
      (Last .pretty is none ∧ a.pretty = none ∨ ∃ v i, Last .pretty is (some v) ∧ u.intOf v = .ok i ∧ a.pretty = some i) := by
  rw [dump_names, dump_flags]
  have main : ∀ (is : List (DumpOpt × Str)) input, (if given .help is then none
      else (lastInt u ((is.filter (·.1 = .pretty)).map (·.2)) none).map fun p => DumpArgs.mk input (last .output is) p) = some a ↔
      a.input = input ∧ (∀ v, (.help, v) ∉ is) ∧ Last .output is a.output ∧
      (∀ v, (.pretty, v) ∈ is → ∃ i, u.intOf v = .ok i) ∧
      (Last .pretty is none ∧ a.pretty = none ∨ ∃ v i, Last .pretty is (some v) ∧ u.intOf v = .ok i ∧ a.pretty = some i) := by
    intro is input
    have hh := given_iff DumpOpt.help is
    by_cases hg : given .help is = true
    · rw [if_pos hg]
      obtain ⟨v, hv⟩ := hh.1 hg
      simp only [reduceCtorEq, false_iff]
      rintro ⟨-, h, -⟩
      exact h v hv
    · rw [if_neg hg, Option.map_eq_some_iff]
      have hg' : ∀ v, (DumpOpt.help, v) ∉ is := fun v hv => hg (hh.2 ⟨v, hv⟩)
      constructor
      · rintro ⟨p, h1, rfl⟩
        obtain ⟨h2, h3⟩ := (lastInt_some u _ _ _).1 h1
        refine ⟨rfl, hg', (last_iff _ _ _).1 rfl, fun v hv => h2 v ((filter_given _ _ _).2 hv), ?_⟩
        rcases h3 with ⟨h3, rfl⟩ | ⟨s, i, h3, h4, rfl⟩
        · refine .inl ⟨fun v hv => ?_, rfl⟩
          have := (filter_given _ _ _).2 hv
          rw [h3] at this
          cases this
        · rw [getLast_last] at h3
          exact .inr ⟨s, i, (last_iff _ _ _).1 h3, h4, rfl⟩
      · rintro ⟨rfl, -, h2, h3, h4⟩
        refine ⟨a.pretty, (lastInt_some u _ _ _).2 ⟨fun s hs => h3 s ((filter_given _ _ _).1 hs), ?_⟩, ?_⟩
        · rcases h4 with ⟨h4, h5⟩ | ⟨v, i, h4, h5, h6⟩
          · refine .inl ⟨?_, h5⟩
            rw [List.eq_nil_iff_forall_not_mem]
            exact fun v hv => h4 v ((filter_given _ _ _).1 hv)
          · exact .inr ⟨v, i, by rw [getLast_last]; exact (last_iff _ _ _).2 h4, h5, h6⟩
        · rw [(last_iff _ _ _).2 h2]
  unfold dumpArgs
  constructor
  · intro h
    split at h
    · rename_i is input hr
      obtain ⟨w, e, hl⟩ := (readArgs_one dump_table u argv is _).1 hr
      simp only [List.cons.injEq, Option.some.injEq, and_true] at e
      subst e
      obtain ⟨rfl, h'⟩ := (main is _).1 h
      exact ⟨is, hl, h'⟩
    · cases h
  · rintro ⟨is, hl, h⟩
    rw [(readArgs_one dump_table u argv is _).2 ⟨a.input, rfl, hl⟩]
    exact (main is a.input).2 ⟨rfl, h⟩

example : dumpArgs .ascii ["--out=a.json".toList, "net.cbz".toList, "-p4".toList, "--pretty".toList, "2".toList] =
      some ⟨"net.cbz".toList, some "a.json".toList, some 2⟩ ∧
    dumpArgs .ascii ["--".toList, "-p".toList] = some ⟨"-p".toList, none, none⟩ ∧
    dumpArgs .ascii ["net.cbz".toList, "-p".toList, "-1".toList] = some ⟨"net.cbz".toList, none, some (-1)⟩ ∧
    dumpArgs .ascii ["net.cbz".toList, "-p".toList, "two".toList] = none ∧
    dumpArgs .ascii ["net.cbz".toList, "other.cbz".toList] = none ∧ dumpArgs .ascii ["-ohp".toList] = none := by
  decide +kernel

theorem graph_names : names graphManual = graphOptions := by decide +kernel

theorem graph_flags : flags graphManual = (· == .help) := by funext d; cases d <;> rfl

/-- C112, `graph`: every command line. It is accepted iff it is made of options and one file
that can be opened, without `--help`, and an output is given; the last counts. -/
theorem C112_graph (u : UniTable) (canOpen : Str → Bool) (argv : List Str) (input output : Str) :
    graphArgs u canOpen argv = some (input, output) ↔
    ∃ is, Line (names graphManual) (flags graphManual) u argv is (some input) ∧ (∀ v, (.help, v) ∉ is) ∧
      (input = ['-'] ∨ canOpen input = true) ∧ Last .output is (some output) := by
  rw [graph_names, graph_flags]
  have table : Table graphOptions := by constructor <;> decide +kernel
  have main : ∀ is i, (if given .help is || !(i = ['-'] || canOpen i) then none
      else (last .output is).map fun o => (i, o)) = some (input, output) ↔
      input = i ∧ (∀ v, (GraphOpt.help, v) ∉ is) ∧ (input = ['-'] ∨ canOpen input = true) ∧ Last .output is (some output) := by
    intro is i
    have hh := given_iff GraphOpt.help is
    rw [← last_iff]
    have hno : (∀ v, (GraphOpt.help, v) ∉ is) ↔ ¬ given .help is = true := by
      rw [hh]
      exact ⟨fun h ⟨v, hv⟩ => h v hv, fun h v hv => h ⟨v, hv⟩⟩
    rw [hno]
    constructor
    · intro h
      split at h
      · cases h
      · rename_i hc
        rw [Option.map_eq_some_iff] at h
        obtain ⟨o, h1, h2⟩ := h
        simp only [Prod.mk.injEq] at h2
        obtain ⟨rfl, rfl⟩ := h2
        simp only [Bool.or_eq_true, Bool.not_eq_true', not_or, Bool.not_eq_false, decide_eq_true_eq] at hc
        exact ⟨rfl, hc.1, hc.2, h1⟩
    · rintro ⟨rfl, h1, h2, h3⟩
      rw [if_neg, h3]
      · rfl
      · simp only [Bool.or_eq_true, Bool.not_eq_true', not_or, Bool.not_eq_false, decide_eq_true_eq]
        exact ⟨h1, h2⟩
  unfold graphArgs
  constructor
  · intro h
    split at h
    · rename_i is i hr
      obtain ⟨w, e, hl⟩ := (readArgs_one table u argv is _).1 hr
      simp only [List.cons.injEq, Option.some.injEq, and_true] at e
      subst e
      obtain ⟨rfl, h'⟩ := (main is _).1 h
      exact ⟨is, hl, h'⟩
    · cases h
  · rintro ⟨is, hl, h⟩
    rw [(readArgs_one table u argv is _).2 ⟨input, rfl, hl⟩]
    exact (main is input).2 ⟨rfl, h⟩

example : graphArgs .ascii (fun _ => true) ["-oa.dot".toList, "a.json".toList] = some ("a.json".toList, "a.dot".toList) ∧
    graphArgs .ascii (fun _ => false) ["-o=a.dot".toList, "-".toList] = some ("-".toList, "a.dot".toList) ∧
    graphArgs .ascii (fun _ => true) ["a.json".toList] = none ∧
    graphArgs .ascii (fun _ => false) ["-oa.dot".toList, "a.json".toList] = none := by decide +kernel

theorem decode_names : names decodeManual = decodeOptions := by decide +kernel

theorem decode_flags : flags decodeManual = (fun _ => true) := by funext d; cases d <;> rfl

/-- C112, `decode_packet`: what the options say, if the packet were read. -/
theorem C112_decode (u : UniTable) (argv : List Str) (a : DecodeArgs) : decodeArgs u argv = some a ↔
    ∃ is, Line (names decodeManual) (flags decodeManual) u argv is (some a.packet) ∧ (∀ v, (.help, v) ∉ is) ∧
      (a.checksum = false ↔ ∃ v, (.noChecksum, v) ∈ is) ∧ (a.strict = false ↔ ∃ v, (.notStrict, v) ∈ is) ∧
      (a.server = false ↔ ∃ v, (.client, v) ∈ is) := by
  rw [decode_names, decode_flags]
  have table : Table decodeOptions := by constructor <;> decide +kernel
  have main : ∀ is i, (if given .help is then none
      else some (DecodeArgs.mk i (!given .noChecksum is) (!given .notStrict is) (!given .client is))) = some a ↔
      a.packet = i ∧ (∀ v, (DecodeOpt.help, v) ∉ is) ∧
      (a.checksum = false ↔ ∃ v, (.noChecksum, v) ∈ is) ∧ (a.strict = false ↔ ∃ v, (.notStrict, v) ∈ is) ∧
      (a.server = false ↔ ∃ v, (.client, v) ∈ is) := by
    intro is i
    have hno : (∀ v, (DecodeOpt.help, v) ∉ is) ↔ ¬ given .help is = true := by
      rw [given_iff]
      exact ⟨fun h ⟨v, hv⟩ => h v hv, fun h v hv => h ⟨v, hv⟩⟩
    rw [hno, ← given_iff, ← given_iff, ← given_iff]
    obtain ⟨p, c, s, v⟩ := a
    cases given .help is <;> simp
    cases given .noChecksum is <;> cases given .notStrict is <;> cases given .client is <;> cases c <;> cases s <;> cases v <;>
      simp [eq_comm]
  unfold decodeArgs
  constructor
  · intro h
    split at h
    · rename_i is i hr
      obtain ⟨w, e, hl⟩ := (readArgs_one table u argv is _).1 hr
      simp only [List.cons.injEq, Option.some.injEq, and_true] at e
      subst e
      obtain ⟨rfl, h'⟩ := (main is _).1 h
      exact ⟨is, hl, h'⟩
    · cases h
  · rintro ⟨is, hl, h⟩
    rw [(readArgs_one table u argv is _).2 ⟨a.packet, rfl, hl⟩]
    exact (main is a.packet).2 ⟨rfl, h⟩

example : decodeArgs .ascii ["-CSc".toList, "g.".toList] = some ⟨"g.".toList, false, false, false⟩ ∧
    decodeArgs .ascii ["--no-".toList, "g.".toList] = some ⟨"g.".toList, false, true, true⟩ ∧
    decodeArgs .ascii ["--no".toList, "g.".toList] = none := by decide +kernel

/-- C112: but `decode_packet` refuses every command line. -/
theorem C112_decode_refused (u : UniTable) (argv : List Str) : decodeCommand u argv = .usage := by
  unfold decodeCommand
  split <;> rfl

theorem help_names : names helpManual = helpOnly := by decide +kernel

theorem help_table : Table helpOnly := by constructor <;> decide +kernel

/-- With only `--help`, a line without it is one word, with `--` on one side or none. -/
theorem help_line (u : UniTable) (argv : List Str) (w : Str) : Line helpOnly (fun _ => true) u argv [] (some w) ↔
    argv = ["--".toList, w] ∨ IsArg helpOnly u w ∧ (argv = [w] ∨ argv = [w, "--".toList]) := by
  have some' : ∀ s is p, Run helpOnly (fun _ => true) s is p → is ≠ [] := by
    rintro s is p h
    cases h <;> simp_all
  have group : ∀ ws is, Group helpOnly (fun _ => true) u ws is → is ≠ [] := by
    intro ws is h
    cases h with
    | short s is h => cases h with
      | plain _ _ _ h => exact some' _ _ _ h
      | equals => simp
      | flag => simp
    | _ => simp
  constructor
  · intro h
    generalize hi : ([] : List (Unit × Str)) = is at h
    generalize hp : some w = p at h
    cases h with
    | nil => cases hp
    | group ws more is is' p h hm =>
      exact absurd (List.append_eq_nil_iff.1 hi.symm).1 (group ws is h)
    | word x more is h hm =>
      injection hp with hp
      subst hp hi
      generalize hi : ([] : List (Unit × Str)) = is at hm
      generalize hp : (none : Option Str) = p at hm
      cases hm with
      | nil => exact .inr ⟨h, .inl rfl⟩
      | group ws more is is' p h hm => exact absurd (List.append_eq_nil_iff.1 hi.symm).1 (group ws is h)
      | word => cases hp
      | before => cases hp
      | after => cases hp
    | before => injection hp with hp; subst hp; exact .inl rfl
    | after x h => injection hp with hp; subst hp; exact .inr ⟨h, .inr rfl⟩
  · rintro (rfl | ⟨h, rfl | rfl⟩)
    · exact .before w
    · exact .word w [] [] h .nil
    · exact .after w h

/-- C112, `fetch_protocol_docs`: the destination is the only word, but for `--`. -/
theorem C112_fetch (u : UniTable) (argv : List Str) (w : Str) : fetchArgs u argv = some w ↔
    argv = ["--".toList, w] ∨ IsArg (names helpManual) u w ∧ (argv = [w] ∨ argv = [w, "--".toList]) := by
  rw [help_names]
  rw [← help_line]
  unfold fetchArgs
  constructor
  · intro h
    split at h
    · rename_i d hr
      injection h with h
      subst h
      obtain ⟨w, e, hl⟩ := (readArgs_one help_table u argv [] _).1 hr
      simp only [List.cons.injEq, Option.some.injEq, and_true] at e
      subst e
      exact hl
    · cases h
  · intro hl
    rw [(readArgs_one help_table u argv [] _).2 ⟨w, rfl, hl⟩]

example : fetchArgs .ascii ["docs".toList] = some "docs".toList ∧ fetchArgs .ascii ["--".toList, "-h".toList] = some "-h".toList ∧
    fetchArgs .ascii ["-h".toList, "docs".toList] = none ∧ fetchArgs .ascii ["-1".toList] = some "-1".toList := by decide +kernel

/-! ## pciprotocol -/

theorem pci_names : names pciManual = pciOptions := by decide +kernel

theorem pci_flags : flags pciManual = (· == .help) := by funext d; cases d <;> rfl

/-- C112, `pciprotocol`: every command line. It is accepted iff it is made of options,
without `--help`, and one of the two ports is given. -/
theorem C112_pci (u : UniTable) (argv : List Str) (s t : Option Str) : pciArgs u argv = some (s, t) ↔
    ∃ is, Line (names pciManual) (flags pciManual) u argv is none ∧ (∀ v, (.help, v) ∉ is) ∧ Last .serial is s ∧ Last .tcp is t ∧
      (s.isSome ∧ t = none ∨ s = none ∧ t.isSome) := by
  rw [pci_names, pci_flags]
  have table : Table pciOptions := by constructor <;> decide +kernel
  have lg : ∀ (d : PciOpt) is, given d is = (last d is).isSome := by
    intro d is
    have h := (last_iff d is _).1 rfl
    cases hl : last d is with
    | none =>
      rw [hl] at h
      cases hg : given d is with
      | false => rfl
      | true =>
        obtain ⟨v, hv⟩ := (given_iff d is).1 hg
        exact absurd hv (h v)
    | some v =>
      rw [hl] at h
      obtain ⟨a, b, e, -⟩ := h
      rw [(given_iff d is).2 ⟨v, by rw [e]; simp⟩]
      rfl
  have main : ∀ is : List (PciOpt × Str), (if given .help is || given .serial is == given .tcp is then none
      else some (last .serial is, last .tcp is)) = some (s, t) ↔
      (∀ v, (PciOpt.help, v) ∉ is) ∧ Last .serial is s ∧ Last .tcp is t ∧ (s.isSome ∧ t = none ∨ s = none ∧ t.isSome) := by
    intro is
    have hno : (∀ v, (PciOpt.help, v) ∉ is) ↔ ¬ given .help is = true := by
      rw [given_iff]
      exact ⟨fun h ⟨v, hv⟩ => h v hv, fun h v hv => h ⟨v, hv⟩⟩
    rw [hno, ← last_iff, ← last_iff, lg .serial, lg .tcp]
    cases given .help is <;> cases last PciOpt.serial is <;> cases last PciOpt.tcp is <;> cases s <;> cases t <;> simp
  unfold pciArgs
  constructor
  · intro h
    split at h
    · rename_i is vs hr
      obtain ⟨-, hl⟩ := (readArgs_none table u argv is _).1 hr
      exact ⟨is, hl, (main is).1 h⟩
    · cases h
  · rintro ⟨is, hl, h⟩
    rw [(readArgs_none table u argv is []).2 ⟨rfl, hl⟩]
    exact (main is).2 h

theorem splitMax_none (n : Nat) (a : Str) (h : ':' ∉ a) : splitMax ':' n a = [a] := by
  cases n with
  | zero => rfl
  | succ n =>
    unfold splitMax
    have : a.dropWhile (· ≠ ':') = [] := by
      have := List.dropWhile_append_of_pos (p := fun c => decide (c ≠ ':')) (l₁ := a) (l₂ := []) fun c hc => by
        simp only [decide_eq_true_eq]
        rintro rfl
        exact h hc
      simpa using this
    rw [this]

theorem splitMax_some (n : Nat) (a r : Str) (h : ':' ∉ a) : splitMax ':' (n + 1) (a ++ ':' :: r) = a :: splitMax ':' n r := by
  have h' : ∀ c ∈ a, decide (c ≠ ':') = true := fun c hc => by
    simp only [decide_eq_true_eq]
    rintro rfl
    exact h hc
  rw [splitMax, List.dropWhile_append_of_pos h', List.takeWhile_append_of_pos h']
  simp

theorem split_colon (t : Str) : (':' ∉ t) ∨ ∃ a r, t = a ++ ':' :: r ∧ ':' ∉ a := by
  induction t with
  | nil => exact .inl (by simp)
  | cons c t ih =>
    by_cases hc : c = ':'
    · subst hc; exact .inr ⟨[], t, rfl, by simp⟩
    · rcases ih with ih | ⟨a, r, rfl, ha⟩
      · exact .inl (by simp [ih, Ne.symm hc])
      · exact .inr ⟨c :: a, r, rfl, by simp [ha, Ne.symm hc]⟩

/-- A text with two parts. -/
theorem splitMax_two (t host port : Str) : splitMax ':' 2 t = [host, port] ↔
    t = host ++ ':' :: port ∧ ':' ∉ host ∧ ':' ∉ port := by
  rcases split_colon t with h | ⟨a, r, rfl, ha⟩
  · rw [splitMax_none 2 t h]
    constructor
    · intro e; simp at e
    · rintro ⟨rfl, -⟩; simp at h
  · rw [splitMax_some 1 a r ha]
    have uniq : ∀ (a b x y : Str), ':' ∉ a → ':' ∉ b → a ++ ':' :: x = b ++ ':' :: y → a = b ∧ x = y := by
      intro a
      induction a with
      | nil =>
        intro b x y _ hb e
        rcases b with _ | ⟨c, b⟩
        · simpa using e
        · simp at e hb; exact absurd e.1 hb.1
      | cons c a ih =>
        intro b x y ha hb e
        rcases b with _ | ⟨c', b⟩
        · simp at e ha; exact absurd e.1.symm ha.1
        · simp only [List.cons_append, List.cons.injEq, List.mem_cons, not_or] at e ha hb
          obtain ⟨rfl, e⟩ := e
          obtain ⟨rfl, rfl⟩ := ih b x y ha.2 hb.2 e
          exact ⟨rfl, rfl⟩
    rcases split_colon r with h | ⟨b, r', rfl, hb⟩
    · rw [splitMax_none 1 r h]
      simp only [List.cons.injEq, and_true]
      constructor
      · rintro ⟨rfl, rfl⟩; exact ⟨rfl, ha, h⟩
      · rintro ⟨e, h1, h2⟩; exact uniq _ _ _ _ ha h1 e
    · rw [splitMax_some 0 b r' hb]
      constructor
      · intro e; simp [splitMax] at e
      · rintro ⟨e, h1, h2⟩
        obtain ⟨-, rfl⟩ := uniq _ _ _ _ ha h1 e
        simp at h2

/-- C112, `pciprotocol`: a serial port is opened iff it is given and not empty; a connection
is made iff there is a text of a host and a number with one colon between them. -/
theorem C112_pci_connects (u : UniTable) (argv : List Str) :
    (∀ port, pciCommand u argv = .serial port ↔ pciArgs u argv = some (some port, none) ∧ port ≠ []) ∧
    (∀ host port, pciCommand u argv = .tcp host port ↔ ∃ p, pciArgs u argv = some (none, some (host ++ ':' :: p)) ∧
      ':' ∉ host ∧ ':' ∉ p ∧ u.intOf p = .ok port) ∧
    (pciCommand u argv = .nothing ↔ pciArgs u argv = some (some [], none) ∨ pciArgs u argv = some (none, some [])) := by
  cases h : pciArgs u argv with
  | none => simp [pciCommand, h]
  | some r =>
    obtain ⟨s, t⟩ := r
    obtain ⟨is, -, -, -, -, hs⟩ := (C112_pci u argv s t).1 h
    rcases hs with ⟨hs, rfl⟩ | ⟨rfl, ht⟩
    · obtain ⟨s, rfl⟩ := Option.isSome_iff_exists.1 hs
      have e : pciCommand u argv = if s = [] then .nothing else .serial s := by
        unfold pciCommand
        rw [h]
        cases s <;> simp [Daemon.truthy]
      rw [e]
      by_cases hs : s = []
      · subst hs; simp
      · rw [if_neg hs]
        simp [hs]
    · obtain ⟨t, rfl⟩ := Option.isSome_iff_exists.1 ht
      by_cases ht : t = []
      · subst ht
        have e : pciCommand u argv = .nothing := by
          unfold pciCommand
          rw [h]
          simp [Daemon.truthy]
        simp [e]
      · have e : pciCommand u argv = match splitMax ':' 2 t with
          | [host, port] =>
            match u.intOf port with
            | .ok p => .tcp host p
            | .error e => .raised e
          | _ => .raised .valueError := by
          unfold pciCommand
          rw [h]
          cases t with
          | nil => exact absurd rfl ht
          | cons c t =>
            simp only [Daemon.truthy, Bool.false_eq_true, if_false, if_true, Option.getD_some]
            rfl
        rw [e]
        refine ⟨?_, ?_, ?_⟩
        · intro port
          simp only [Option.some.injEq, Prod.mk.injEq, reduceCtorEq, false_and, iff_false]
          split
          · split <;> simp
          · simp
        · intro host port
          simp only [Option.some.injEq, Prod.mk.injEq, true_and]
          constructor
          · intro h1
            split at h1
            · rename_i a b hsp
              split at h1
              · rename_i p hp
                injection h1 with h2 h3
                subst h2 h3
                obtain ⟨h4, h5, h6⟩ := (splitMax_two t _ b).1 hsp
                exact ⟨b, h4, h5, h6, hp⟩
              · cases h1
            · cases h1
          · rintro ⟨p, h1, h2, h3, h4⟩
            rw [(splitMax_two t host p).2 ⟨h1, h2, h3⟩]
            simp [h4]
        · simp only [Option.some.injEq, Prod.mk.injEq, reduceCtorEq, false_and, true_and, false_or, ht, iff_false]
          split
          · split <;> simp
          · simp

example : pciCommand .ascii ["-t192.0.2.1:10001".toList] = .tcp "192.0.2.1".toList 10001 ∧
    pciCommand .ascii ["--serial".toList, "/dev/ttyUSB0".toList] = .serial "/dev/ttyUSB0".toList ∧
    pciCommand .ascii ["-t::1:10001".toList] = .raised .valueError ∧ pciCommand .ascii ["--tcp=".toList] = .nothing ∧
    pciCommand .ascii ["-s/dev/ttyUSB0".toList, "-t".toList, "a:1".toList] = .usage := by decide +kernel

/-! ## pciserverprotocol -/

/-- The words of a command line without options: behind `--`, which is left out once,
anything counts as one. -/
def Words (u : UniTable) (argv words : List Str) : Prop :=
  (argv = words ∧ ∀ w ∈ words, IsArg (names helpManual) u w) ∨
  ∃ a b, argv = a ++ "--".toList :: b ∧ words = a ++ b ∧ ∀ w ∈ a, IsArg (names helpManual) u w

theorem readWords_rest (ws : List (Str × ArgParse.Word Unit)) (vs : List (List Str)) :
    readWords helpOnly (fun _ => true) ws [] = some ([], vs) ↔ ws = [] ∧ vs = [] := by
  constructor
  · intro h
    rcases ws with _ | ⟨⟨w, k⟩, r⟩
    · simpa [readWords, takeAll, eq_comm] using h
    · exfalso
      cases k with
      | arg => rw [readWords_none w _ r (.inl rfl)] at h; cases h
      | dashes => rw [readWords_none w _ r (.inr rfl)] at h; cases h
      | unknown => simp [readWords] at h
      | opt d s e =>
        rw [readWords] at h
        split at h
        · cases h
        · split at h
          · cases h
          · rw [Option.map_eq_some_iff] at h
            obtain ⟨y, -, h⟩ := h
            simp at h
        · simp only [if_true] at h
          rw [Option.map_eq_some_iff] at h
          obtain ⟨y, -, h⟩ := h
          simp at h
  · rintro ⟨rfl, rfl⟩
    simp [readWords, takeAll]

/-- Two arguments that need not be given take all there is. -/
theorem readWords_two (ws : List (Str × ArgParse.Word Unit)) (vs : List (List Str)) :
    readWords helpOnly (fun _ => true) ws [false, false] = some ([], vs) ↔
      ∃ x y r, takeOne false ws = some (x, r) ∧ takeOne false r = some (y, []) ∧ vs = [x, y] := by
  have total : ∀ ws : List (Str × ArgParse.Word Unit), ∃ v r, takeOne false ws = some (v, r) := by
    intro ws
    unfold takeOne
    dsimp only
    split
    · exact ⟨_, _, rfl⟩
    · exact ⟨_, _, rfl⟩
  obtain ⟨x, r, h1⟩ := total ws
  obtain ⟨y, r', h2⟩ := total r
  have ta : takeAll [false, false] ws = ([x, y], [], r') := by
    simp [takeAll, h1, h2]
  have goal : (∃ x' y' r'', takeOne false ws = some (x', r'') ∧ takeOne false r'' = some (y', []) ∧ vs = [x', y']) ↔
      r' = [] ∧ vs = [x, y] := by
    constructor
    · rintro ⟨x', y', r'', e1, e2, rfl⟩
      rw [h1] at e1
      simp only [Option.some.injEq, Prod.mk.injEq] at e1
      obtain ⟨rfl, rfl⟩ := e1
      rw [h2] at e2
      simp only [Option.some.injEq, Prod.mk.injEq] at e2
      obtain ⟨rfl, rfl⟩ := e2
      exact ⟨rfl, rfl⟩
    · rintro ⟨rfl, rfl⟩
      exact ⟨x, y, r, h1, h2, rfl⟩
  rw [goal]
  rcases ws with _ | ⟨⟨w, k⟩, t⟩
  · have e : takeAll [false, false] ([] : List (Str × ArgParse.Word Unit)) = ([[], []], [], []) := by
      simp [takeAll, takeOne]
    rw [e] at ta
    simp only [Prod.mk.injEq, true_and] at ta
    obtain ⟨ta, rfl⟩ := ta
    simp [readWords, e, ← ta, eq_comm]
  · have step : k = .arg ∨ k = .dashes → readWords helpOnly (fun _ => true) ((w, k) :: t) [false, false] =
        if r'.length < t.length + 1 then (readWords helpOnly (fun _ => true) r' []).map fun z => (z.1, [x, y] ++ z.2) else none := by
      intro hk
      have : readWords helpOnly (fun _ => true) ((w, k) :: t) [false, false] =
        if (takeAll [false, false] ((w, k) :: t)).2.2.length < t.length + 1 then
          (readWords helpOnly (fun _ => true) (takeAll [false, false] ((w, k) :: t)).2.2 (takeAll [false, false] ((w, k) :: t)).2.1).map
            fun z => (z.1, (takeAll [false, false] ((w, k) :: t)).1 ++ z.2) else none := by
        rcases hk with rfl | rfl <;> rw [readWords] <;> intros <;> contradiction
      rw [this, ta]
    have fin : k = .arg ∨ k = .dashes → (readWords helpOnly (fun _ => true) ((w, k) :: t) [false, false] = some ([], vs) ↔
        r' = [] ∧ vs = [x, y]) := by
      intro hk
      rw [step hk]
      constructor
      · intro h
        split at h
        · rw [Option.map_eq_some_iff] at h
          obtain ⟨⟨z1, z2⟩, h3, h4⟩ := h
          simp only [Prod.mk.injEq] at h4
          obtain ⟨rfl, rfl⟩ := h4
          obtain ⟨rfl, rfl⟩ := (readWords_rest r' z2).1 h3
          exact ⟨rfl, rfl⟩
        · cases h
      · rintro ⟨rfl, rfl⟩
        simp [(readWords_rest [] []).2 ⟨rfl, rfl⟩]
    have none' : (∀ e, k ≠ .arg ∧ k ≠ .dashes → takeOne false ((w, k) :: t) = e → e = some ([], (w, k) :: t)) := by
      rintro e ⟨k1, k2⟩ rfl
      have hb : isDashes (w, k) = false := by cases k <;> first | rfl | exact absurd rfl k2
      unfold takeOne
      simp only [List.takeWhile_cons, List.dropWhile_cons, hb]
      cases k <;> first | exact absurd rfl k1 | rfl
    have rest : k ≠ .arg ∧ k ≠ .dashes → r' ≠ [] := by
      intro hk
      have e1 := none' _ hk h1
      simp only [Option.some.injEq, Prod.mk.injEq] at e1
      obtain ⟨-, rfl⟩ := e1
      have e2 := none' _ hk h2
      simp only [Option.some.injEq, Prod.mk.injEq] at e2
      obtain ⟨-, rfl⟩ := e2
      simp
    cases k with
    | arg => exact fin (.inl rfl)
    | dashes => exact fin (.inr rfl)
    | unknown =>
      have := rest (by simp)
      simp [readWords, this]
    | opt d s e =>
      have := rest (by simp)
      simp only [this, false_and, iff_false]
      intro h
      rw [readWords] at h
      split at h
      · cases h
      · split at h
        · cases h
        · rw [Option.map_eq_some_iff] at h
          obtain ⟨y, -, h⟩ := h
          simp at h
      · simp only [if_true] at h
        rw [Option.map_eq_some_iff] at h
        obtain ⟨y, -, h⟩ := h
        simp at h

theorem args_take (xs : List Str) :
    (xs.map fun w => (w, ArgParse.Word.arg (δ := Unit))).takeWhile isDashes = [] ∧
    (xs.map fun w => (w, ArgParse.Word.arg (δ := Unit))).dropWhile isDashes = xs.map fun w => (w, .arg) := by
  cases xs <;> simp [isDashes, List.takeWhile_cons, List.dropWhile_cons]

theorem take_arg (w : Str) (r : List (Str × ArgParse.Word Unit)) : takeOne false ((w, .arg) :: r) =
    some (w :: (r.takeWhile isDashes).map (·.1), r.dropWhile isDashes) := by
  simp [takeOne, isDashes]

theorem take_args (xs : List Str) : takeOne (δ := Unit) false (xs.map fun w => (w, .arg)) =
    match xs with
    | [] => some ([], [])
    | x :: xs => some ([x], xs.map fun w => (w, .arg)) := by
  cases xs with
  | nil => simp [takeOne]
  | cons x xs => rw [List.map_cons, take_arg, (args_take xs).1, (args_take xs).2]; rfl

theorem take_dashes (w : Str) (xs : List Str) : takeOne (δ := Unit) false ((w, .dashes) :: xs.map fun w => (w, .arg)) =
    match xs with
    | [] => some ([w], [])
    | x :: xs => some ([w, x], xs.map fun w => (w, .arg)) := by
  cases xs with
  | nil => simp [takeOne, isDashes, List.takeWhile_cons, List.dropWhile_cons]
  | cons x xs =>
    simp [takeOne, isDashes, List.takeWhile_cons, List.dropWhile_cons, (args_take xs).1, (args_take xs).2]

theorem take_other (w : Str) (k : ArgParse.Word Unit) (t : List (Str × ArgParse.Word Unit)) (h1 : k ≠ .arg) (h2 : k ≠ .dashes) :
    takeOne false ((w, k) :: t) = some ([], (w, k) :: t) := by
  have hb : isDashes (w, k) = false := by cases k <;> first | rfl | exact absurd rfl h2
  unfold takeOne
  simp only [List.takeWhile_cons, List.dropWhile_cons, hb]
  cases k <;> first | exact absurd rfl h1 | rfl

/-- The two arguments, by the words of the line. -/
theorem server_words (u : UniTable) (argv : List Str) (a p : Option Str) :
    (∃ ws x y r, classifyAll helpOnly u argv = some ws ∧ takeOne false ws = some (x, r) ∧ takeOne false r = some (y, []) ∧
      a = (x.erase "--".toList).head? ∧ p = (y.erase "--".toList).head?) ↔
    ∃ words, Words u argv words ∧ words.length ≤ 2 ∧ a = words[0]? ∧
      (words[1]? = some "--".toList ∧ p = none ∨ words[1]? ≠ some "--".toList ∧ p = words[1]?) := by
  have er : ∀ (w : Str) (t : List Str), w ≠ "--".toList → ((w :: t).erase "--".toList).head? = some w := by
    intro w t hw
    rw [List.erase_cons, if_neg (by simpa using hw)]
    rfl
  have er2 : ∀ z : Str, (z = "--".toList ∧ ([z].erase "--".toList).head? = none) ∨
      (z ≠ "--".toList ∧ ([z].erase "--".toList).head? = some z) := by
    intro z
    by_cases hz : z = "--".toList
    · exact .inl ⟨hz, by rw [hz]; rfl⟩
    · exact .inr ⟨hz, er z [] hz⟩
  have fin : ∀ z : Str, some z = some "--".toList ∧ ([z].erase "--".toList).head? = none ∨
      some z ≠ some "--".toList ∧ ([z].erase "--".toList).head? = some z := by
    intro z
    rcases er2 z with ⟨rfl, h⟩ | ⟨hz, h⟩
    · exact .inl ⟨rfl, h⟩
    · exact .inr ⟨by simpa using hz, h⟩
  have arg : ∀ w, IsArg helpOnly u w ↔ w ≠ "--".toList ∧ ArgParse.classify helpOnly u w = some .arg := isArg_iff help_table u
  constructor
  · rintro ⟨ws, x, y, r, hc, h1, h2, rfl, rfl⟩
    rcases ws with _ | ⟨⟨w, k⟩, t⟩
    · have : argv = [] := by
        have := (classifyAll_words u _ _ hc).1
        simpa using this.symm
      subst this
      simp only [takeOne, List.takeWhile_nil, List.dropWhile_nil, List.map_nil, Bool.false_eq_true, if_false, Option.some.injEq,
        Prod.mk.injEq] at h1
      obtain ⟨rfl, rfl⟩ := h1
      simp only [takeOne, List.takeWhile_nil, List.dropWhile_nil, List.map_nil, Bool.false_eq_true, if_false, Option.some.injEq,
        Prod.mk.injEq] at h2
      obtain ⟨rfl, -⟩ := h2
      exact ⟨[], .inl ⟨rfl, by simp⟩, by simp, rfl, .inr ⟨by simp, rfl⟩⟩
    · obtain ⟨rest, rfl, ⟨rfl, rfl, rfl⟩ | ⟨hw, hk, hcw, hcr⟩⟩ := classifyAll_inv u argv w k t hc
      · rw [take_dashes] at h1
        rcases rest with _ | ⟨z, rest⟩
        · simp only [Option.some.injEq, Prod.mk.injEq] at h1
          obtain ⟨rfl, rfl⟩ := h1
          rw [show takeOne (δ := Unit) false [] = some ([], []) from by simp [takeOne]] at h2
          simp only [Option.some.injEq, Prod.mk.injEq, and_true] at h2
          subst h2
          exact ⟨[], .inr ⟨[], [], rfl, rfl, by simp⟩, by simp, rfl, .inr ⟨by simp, rfl⟩⟩
        · simp only [Option.some.injEq, Prod.mk.injEq] at h1
          obtain ⟨rfl, rfl⟩ := h1
          rw [take_args] at h2
          rcases rest with _ | ⟨z', rest⟩
          · simp only [Option.some.injEq, Prod.mk.injEq, and_true] at h2
            subst h2
            exact ⟨[z], .inr ⟨[], [z], rfl, rfl, by simp⟩, by simp, by simp, .inr ⟨by simp, rfl⟩⟩
          · simp only [Option.some.injEq, Prod.mk.injEq, List.map_eq_nil_iff] at h2
            obtain ⟨rfl, rfl⟩ := h2
            exact ⟨[z, z'], .inr ⟨[], [z, z'], rfl, rfl, by simp⟩, by simp, by simp, fin z'⟩
      · by_cases hka : k = .arg
        · subst hka
          have hwa := (arg w).2 ⟨hw, hcw⟩
          rw [take_arg] at h1
          simp only [Option.some.injEq, Prod.mk.injEq] at h1
          obtain ⟨rfl, rfl⟩ := h1
          rcases t with _ | ⟨⟨v, k'⟩, t⟩
          · have : rest = [] := by
              have := (classifyAll_words u _ _ hcr).1
              simpa using this.symm
            subst this
            rw [show takeOne (δ := Unit) false ([].dropWhile isDashes) = some ([], []) from by simp [takeOne]] at h2
            simp only [Option.some.injEq, Prod.mk.injEq, and_true] at h2
            subst h2
            exact ⟨[w], .inl ⟨rfl, by simpa [help_names] using hwa⟩, by simp, er w _ hw, .inr ⟨by simp, rfl⟩⟩
          · obtain ⟨rest', rfl, ⟨rfl, rfl, rfl⟩ | ⟨hv, hk', hcv, hcr'⟩⟩ := classifyAll_inv u rest v k' t hcr
            · rw [List.dropWhile_cons, if_pos (by rfl), (args_take rest').2, take_args] at h2
              rcases rest' with _ | ⟨z, rest'⟩
              · simp only [Option.some.injEq, Prod.mk.injEq, and_true] at h2
                subst h2
                exact ⟨[w], .inr ⟨[w], [], rfl, rfl, by simpa [help_names] using hwa⟩, by simp, er w _ hw, .inr ⟨by simp, rfl⟩⟩
              · simp only [Option.some.injEq, Prod.mk.injEq, List.map_eq_nil_iff] at h2
                obtain ⟨rfl, rfl⟩ := h2
                exact ⟨[w, z], .inr ⟨[w], [z], rfl, rfl, by simpa [help_names] using hwa⟩, by simp, er w _ hw, fin z⟩
            · have hb : isDashes (v, k') = false := by cases k' <;> first | rfl | exact absurd rfl hk'
              rw [List.dropWhile_cons, hb, if_neg (by simp)] at h2
              by_cases hka' : k' = .arg
              · subst hka'
                have hva := (arg v).2 ⟨hv, hcv⟩
                rw [take_arg] at h2
                simp only [Option.some.injEq, Prod.mk.injEq] at h2
                obtain ⟨rfl, h2⟩ := h2
                have shape : rest' = [] ∨ rest' = ["--".toList] := by
                  rcases t with _ | ⟨⟨z, k''⟩, t⟩
                  · have := (classifyAll_words u _ _ hcr').1
                    exact .inl (by simpa using this.symm)
                  · obtain ⟨rest'', rfl, ⟨rfl, rfl, rfl⟩ | ⟨-, hk'', -⟩⟩ := classifyAll_inv u rest' z k'' t hcr'
                    · rw [List.dropWhile_cons, if_pos (by rfl), (args_take rest'').2, List.map_eq_nil_iff] at h2
                      exact .inr (by rw [h2])
                    · have hb : isDashes (z, k'') = false := by cases k'' <;> first | rfl | exact absurd rfl hk''
                      rw [List.dropWhile_cons, hb, if_neg (by simp)] at h2
                      cases h2
                have both : ∀ x ∈ [w, v], IsArg helpOnly u x := by
                  intro x hx
                  simp only [List.mem_cons, List.not_mem_nil, or_false] at hx
                  rcases hx with rfl | rfl
                  · exact hwa
                  · exact hva
                rcases shape with rfl | rfl
                · exact ⟨[w, v], .inl ⟨rfl, both⟩, by simp, er w _ hw, .inr ⟨by simpa using hv, er v _ hv⟩⟩
                · exact ⟨[w, v], .inr ⟨[w, v], [], rfl, rfl, both⟩, by simp, er w _ hw, .inr ⟨by simpa using hv, er v _ hv⟩⟩
              · rw [take_other v k' t hka' hk'] at h2
                simp at h2
        · rw [take_other w k t hka hk] at h1
          simp only [Option.some.injEq, Prod.mk.injEq] at h1
          obtain ⟨rfl, rfl⟩ := h1
          rw [take_other w k t hka hk] at h2
          simp at h2
  · rintro ⟨words, hw, hlen, rfl, hp⟩
    have nilT : takeOne (δ := Unit) false [] = some ([], []) := by simp [takeOne]
    have cons : ∀ w rest r, IsArg helpOnly u w → classifyAll helpOnly u rest = some r →
        classifyAll helpOnly u (w :: rest) = some ((w, .arg) :: r) := by
      intro w rest r h hr
      exact classifyAll_cons u w rest _ r ((arg w).1 h).1 ((arg w).1 h).2 hr
    have dash : ∀ b, classifyAll helpOnly u ("--".toList :: b) = some (("--".toList, .dashes) :: b.map fun w => (w, .arg)) := by
      intro b
      simp [classifyAll]
    have pz : ∀ z : Str, (some z = some "--".toList ∧ p = none ∨ some z ≠ some "--".toList ∧ p = some z) →
        p = ([z].erase "--".toList).head? := by
      rintro z (⟨e, rfl⟩ | ⟨e, rfl⟩)
      · injection e with e; subst e; rfl
      · rw [er z [] (by simpa using e)]
    have pn : (none = some "--".toList ∧ p = none ∨ none ≠ some "--".toList ∧ p = none) → p = none := by
      rintro (⟨e, -⟩ | ⟨-, h⟩)
      · cases e
      · exact h
    rcases hw with ⟨rfl, ha⟩ | ⟨a, b, rfl, rfl, ha⟩
    · rcases argv with _ | ⟨w, _ | ⟨v, _ | ⟨z, t⟩⟩⟩
      · exact ⟨[], [], [], [], rfl, nilT, nilT, rfl, pn hp⟩
      · have h1 := ha w (by simp)
        exact ⟨[(w, .arg)], [w], [], [], cons w [] [] h1 rfl, by rw [take_arg]; rfl, nilT, (er w [] h1.1).symm, pn hp⟩
      · have h1 := ha w (by simp)
        have h2 := ha v (by simp)
        refine ⟨[(w, .arg), (v, .arg)], [w], [v], [(v, .arg)], cons w _ _ h1 (cons v [] [] h2 rfl), ?_, by rw [take_arg]; rfl,
          (er w [] h1.1).symm, pz v hp⟩
        rw [take_arg]
        simp [isDashes, List.takeWhile_cons, List.dropWhile_cons]
      · simp at hlen
    · rcases a with _ | ⟨w, _ | ⟨v, _ | ⟨z, t⟩⟩⟩
      · rcases b with _ | ⟨z, _ | ⟨z', _ | ⟨z'', t⟩⟩⟩
        · exact ⟨_, ["--".toList], [], [], dash [], by rw [take_dashes], nilT, rfl, pn hp⟩
        · exact ⟨_, ["--".toList, z], [], [], dash [z], by rw [take_dashes]; rfl, nilT, by simp, pn hp⟩
        · exact ⟨_, ["--".toList, z], [z'], [(z', .arg)], dash [z, z'], by rw [take_dashes]; rfl, by rw [take_arg]; rfl, by simp, pz z' hp⟩
        · simp at hlen
      · have h1 := ha w (by simp)
        rcases b with _ | ⟨z, _ | ⟨z', t⟩⟩
        · refine ⟨_, [w, "--".toList], [], [], cons w _ _ h1 (dash []), ?_, nilT, (er w _ h1.1).symm, pn hp⟩
          rw [take_arg]
          simp [isDashes, List.takeWhile_cons, List.dropWhile_cons]
        · refine ⟨_, [w, "--".toList], [z], [(z, .arg)], cons w _ _ h1 (dash [z]), ?_, by rw [take_arg]; rfl, (er w _ h1.1).symm, pz z hp⟩
          rw [take_arg]
          simp [isDashes, List.takeWhile_cons, List.dropWhile_cons]
        · simp at hlen
      · have h1 := ha w (by simp)
        have h2 := ha v (by simp)
        rcases b with _ | ⟨z, t⟩
        · refine ⟨_, [w], [v, "--".toList], [(v, .arg), ("--".toList, .dashes)], cons w _ _ h1 (cons v _ _ h2 (dash [])), ?_, ?_, (er w _ h1.1).symm, ?_⟩
          · rw [take_arg]
            simp [isDashes, List.takeWhile_cons, List.dropWhile_cons]
          · rw [take_arg]
            simp [isDashes, List.takeWhile_cons, List.dropWhile_cons]
          · rw [er v _ h2.1]
            rcases hp with ⟨e, -⟩ | ⟨-, h⟩
            · exact absurd e (by simpa using h2.1)
            · exact h
        · simp at hlen
      · simp at hlen

/-- C112, `pciserverprotocol`: every command line. At most two words, besides `--`: the address,
which is `127.0.0.1` if it is not given, and the port, which must be a number and is 10001
if it is not given or is `--` once more. -/
theorem C112_server (u : UniTable) (argv : List Str) (address : Str) (port : Int) :
    serverArgs u argv = some (address, port) ↔
    ∃ words, Words u argv words ∧ words.length ≤ 2 ∧ address = words[0]?.getD "127.0.0.1".toList ∧
      ((words[1]? = none ∨ words[1]? = some "--".toList) ∧ port = 10001 ∨
       ∃ p, words[1]? = some p ∧ p ≠ "--".toList ∧ u.intOf p = .ok port) := by
  have key : ∀ a p : Option Str, readArgs helpOnly (fun _ => true) [false, false] u argv = some ([], [a, p]) ↔
      ∃ words, Words u argv words ∧ words.length ≤ 2 ∧ a = words[0]? ∧
        (words[1]? = some "--".toList ∧ p = none ∨ words[1]? ≠ some "--".toList ∧ p = words[1]?) := by
    intro a p
    rw [← server_words]
    unfold readArgs
    constructor
    · intro h
      split at h
      · cases h
      · rename_i ws hc
        rw [Option.map_eq_some_iff] at h
        obtain ⟨⟨is, vs⟩, h1, h2⟩ := h
        simp only [Prod.mk.injEq] at h2
        obtain ⟨rfl, h2⟩ := h2
        obtain ⟨x, y, r, h3, h4, rfl⟩ := (readWords_two ws vs).1 h1
        simp only [List.map_cons, List.map_nil, List.cons.injEq, and_true] at h2
        exact ⟨ws, x, y, r, hc, h3, h4, h2.1.symm, h2.2.symm⟩
    · rintro ⟨ws, x, y, r, hc, h3, h4, rfl, rfl⟩
      simp only [hc, (readWords_two ws [x, y]).2 ⟨x, y, r, h3, h4, rfl⟩]
      rfl
  unfold serverArgs
  constructor
  · intro h
    split at h
    · rename_i a p hr
      obtain ⟨words, h1, h2, rfl, h3⟩ := (key a p).1 hr
      refine ⟨words, h1, h2, ?_⟩
      split at h
      · simp only [Option.some.injEq, Prod.mk.injEq] at h
        obtain ⟨rfl, rfl⟩ := h
        refine ⟨rfl, .inl ⟨?_, rfl⟩⟩
        rcases h3 with ⟨h3, -⟩ | ⟨-, h3⟩
        · exact .inr h3
        · exact .inl h3.symm
      · rename_i p
        split at h
        · rename_i i hi
          simp only [Option.some.injEq, Prod.mk.injEq] at h
          obtain ⟨rfl, rfl⟩ := h
          rcases h3 with ⟨-, h3⟩ | ⟨h4, h3⟩
          · cases h3
          · exact ⟨rfl, .inr ⟨p, h3.symm, fun e => h4 (by rw [← h3, e]), hi⟩⟩
        · cases h
    · cases h
  · rintro ⟨words, h1, h2, rfl, h3⟩
    rcases h3 with ⟨h3, rfl⟩ | ⟨p, h3, h4, h5⟩
    · rw [(key words[0]? none).2 ⟨words, h1, h2, rfl, ?_⟩]
      rcases h3 with h3 | h3
      · exact .inr ⟨by rw [h3]; simp, h3.symm⟩
      · exact .inl ⟨h3, rfl⟩
    · rw [(key words[0]? (some p)).2 ⟨words, h1, h2, rfl, .inr ⟨by rw [h3]; simpa using h4, h3.symm⟩⟩]
      simp [h5]

example : serverArgs .ascii [] = some ("127.0.0.1".toList, 10001) ∧
    serverArgs .ascii ["0.0.0.0".toList, "--".toList, "1234".toList] = some ("0.0.0.0".toList, 1234) ∧
    serverArgs .ascii ["a".toList, "--".toList, "--".toList] = some ("a".toList, 10001) ∧
    serverArgs .ascii ["a".toList, "b".toList] = none ∧ serverArgs .ascii ["a".toList, "1".toList, "2".toList] = none := by
  decide +kernel

end CBus.Props
