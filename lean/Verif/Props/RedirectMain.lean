import Verif.Lemmas.OptParse
import Verif.Props.Redirect
import Verif.Props.Commands

/-! # C113, C114, C115: the main program of the serial redirector -/

namespace CBus.Props
open CBus CBus.Spec CBus.Redirect CBus.Lemmas
open CBus.Commands (given last)

/-! ## The command line -/

theorem redirect_table : asTable redirectManual = optTable := by
  have h1 : (asTable redirectManual).long = optTable.long := by decide +kernel
  have h2 : (asTable redirectManual).short = optTable.short := by decide +kernel
  have h3 : (asTable redirectManual).takes = optTable.takes := by funext d; cases d <;> rfl
  cases h : asTable redirectManual
  cases h' : optTable
  simp_all

theorem optTable_distinct : Distinct optTable := by constructor <;> decide +kernel

/-- Every argument that has to be a number is one. -/
def NumbersOk (num : Str → Option Int) (is : List (Opt × Str)) : Prop :=
  ∀ d v, (d, v) ∈ is → (d = .baud ∨ d = .rts ∨ d = .dtr ∨ d = .localport) → ∃ i, num v = some i

/-- The last of an option, or what it is if it is not given. -/
def LastOr (d : Opt) (is : List (Opt × Str)) (dflt v : Str) : Prop := Last d is (some v) ∨ Last d is none ∧ v = dflt

/-- The last of an option that is a number. -/
def LastNumber (num : Str → Option Int) (d : Opt) (is : List (Opt × Str)) : Option Int → Prop
  | none => Last d is none
  | some i => ∃ v, Last d is (some v) ∧ num v = some i

/-- The last of an option that is a number, or what it is if it is not given. -/
def NumberOr (num : Str → Option Int) (d : Opt) (is : List (Opt × Str)) (dflt i : Int) : Prop :=
  (∃ v, Last d is (some v) ∧ num v = some i) ∨ Last d is none ∧ i = dflt

/-- What options and arguments mean. -/
structure RedirectMeans (num int : Str → Option Int) (is : List (Opt × Str)) (args : List Str) (c : Config) : Prop where
  newlines : ∃ net ser netName serName n s, LastOr .netNl is "LF".toList net ∧ LastOr .serNl is "CR+LF".toList ser ∧
    NewlineName netName n ∧ net.map asciiUpper = netName.toList ∧ NewlineName serName s ∧ ser.map asciiUpper = serName.toList ∧
    ((∃ v, (.convert, v) ∈ is) → c.setup.redirector = ⟨some s, some n⟩) ∧
    ((∀ v, (.convert, v) ∉ is) → c.setup.redirector = ⟨none, none⟩)
  port : args = [] ∧ Last .port is c.setup.port ∧ NumberOr num .baud is 9600 c.setup.baudrate ∨
    Last .port is none ∧ ∃ p, c.setup.port = some p ∧
      (args = [p] ∧ NumberOr num .baud is 9600 c.setup.baudrate ∨ ∃ b, args = [p, b] ∧ int b = some c.setup.baudrate)
  quiet : c.quiet = true ↔ ∃ v, (.quiet, v) ∈ is
  spy : c.spy = true ↔ ∃ v, (.spy, v) ∈ is
  parity : LastOr .parity is "N".toList c.parity
  rtscts : c.rtscts = true ↔ ∃ v, (.rtscts, v) ∈ is
  xonxoff : c.xonxoff = true ↔ ∃ v, (.xonxoff, v) ∈ is
  rts : LastNumber num .rts is c.rts
  dtr : LastNumber num .dtr is c.dtr
  localPort : NumberOr num .localport is 7777 c.localPort

theorem last_mem {d : Opt} {is : List (Opt × Str)} {v : Str} (h : last d is = some v) : (d, v) ∈ is := by
  obtain ⟨a, b, rfl, -⟩ := (last_iff d is (some v)).1 h
  simp

theorem lastOr_iff (d : Opt) (is : List (Opt × Str)) (dflt v : Str) :
    (last d is).getD dflt = v ↔ LastOr d is dflt v := by
  unfold LastOr
  rw [← last_iff, ← last_iff]
  cases last d is <;> simp [eq_comm]

theorem lastNumber_iff (num : Str → Option Int) (d : Opt) (hd : d = .baud ∨ d = .rts ∨ d = .dtr ∨ d = .localport)
    (is : List (Opt × Str)) (h : NumbersOk num is) (o : Option Int) :
    lastInt num d is = o ↔ LastNumber num d is o := by
  unfold lastInt
  have aux : ∀ v, Last d is (some v) ↔ last d is = some v := fun v => (last_iff ..).symm
  cases o with
  | none =>
    simp only [LastNumber]
    rw [← last_iff]
    cases hl : last d is with
    | none => simp
    | some v =>
      obtain ⟨i, hi⟩ := h d v (last_mem hl) hd
      simp [hi]
  | some i =>
    simp only [LastNumber, aux]
    cases hl : last d is with
    | none => simp
    | some v => simp

theorem numberOr_iff (num : Str → Option Int) (d : Opt) (hd : d = .baud ∨ d = .rts ∨ d = .dtr ∨ d = .localport)
    (is : List (Opt × Str)) (h : NumbersOk num is) (dflt i : Int) :
    (lastInt num d is).getD dflt = i ↔ NumberOr num d is dflt i := by
  have h1 := fun o => lastNumber_iff num d hd is h o
  unfold NumberOr
  constructor
  · intro e
    cases hl : lastInt num d is with
    | none => rw [hl] at e; exact .inr ⟨(h1 none).1 hl, e.symm⟩
    | some j => rw [hl] at e; simp at e; subst e; exact .inl ((h1 (some j)).1 hl)
  · rintro (e | ⟨e, rfl⟩)
    · rw [(h1 (some i)).2 e]; rfl
    · rw [(h1 none).2 e]; rfl

theorem isInt_iff (d : Opt) : d.isInt = true ↔ (d = .baud ∨ d = .rts ∨ d = .dtr ∨ d = .localport) := by
  cases d <;> simp [Opt.isInt]

theorem process_none (num : Str → Option Int) (is : List (Opt × Str)) :
    process num is = none ↔ (∀ v, (.help, v) ∉ is) ∧ NumbersOk num is := by
  induction is with
  | nil => simp [process, NumbersOk]
  | cons x is ih =>
    obtain ⟨d, v⟩ := x
    unfold process
    by_cases hd : d = .help
    · subst hd
      simp only [if_true, reduceCtorEq, false_iff, not_and]
      intro h
      exact absurd List.mem_cons_self (h v)
    · rw [if_neg hd]
      by_cases hn : (d.isInt && (num v).isNone) = true
      · rw [if_pos hn]
        simp only [Bool.and_eq_true, Option.isNone_iff_eq_none] at hn
        simp only [reduceCtorEq, false_iff, not_and]
        intro _ h
        obtain ⟨i, hi⟩ := h d v (by simp) ((isInt_iff d).1 hn.1)
        rw [hn.2] at hi
        cases hi
      · rw [if_neg hn, ih]
        simp only [Bool.and_eq_true, Option.isNone_iff_eq_none, not_and] at hn
        constructor
        · rintro ⟨h1, h2⟩
          refine ⟨fun w hw => ?_, fun e w hw he => ?_⟩
          · rcases List.mem_cons.1 hw with hw | hw
            · injection hw with e; exact hd e.symm
            · exact h1 w hw
          · rcases List.mem_cons.1 hw with hw | hw
            · injection hw with e1 e2
              subst e1 e2
              exact Option.ne_none_iff_exists'.1 (hn ((isInt_iff _).2 he))
            · exact h2 e w hw he
        · rintro ⟨h1, h2⟩
          exact ⟨fun w hw => h1 w (List.mem_cons_of_mem _ hw), fun e w hw => h2 e w (List.mem_cons_of_mem _ hw)⟩

theorem not_given (d : Opt) (is : List (Opt × Str)) : given d is = false ↔ ∀ v, (d, v) ∉ is := by
  rw [← Bool.not_eq_true, given_iff]
  simp

theorem means_iff (num int : Str → Option Int) (is : List (Opt × Str)) (hn : NumbersOk num is) (args : List Str) (c : Config) :
    (match setup int (optionsOf num is) args with
      | none => Parsed.usage
      | some s => .config (configOf num is s)) = .config c ↔ RedirectMeans num int is args c := by
  have step1 : (match setup int (optionsOf num is) args with
      | none => Parsed.usage
      | some s => .config (configOf num is s)) = .config c ↔
      setup int (optionsOf num is) args = some c.setup ∧
      given .quiet is = c.quiet ∧ given .spy is = c.spy ∧ (last .parity is).getD ['N'] = c.parity ∧
      given .rtscts is = c.rtscts ∧ given .xonxoff is = c.xonxoff ∧ lastInt num .rts is = c.rts ∧ lastInt num .dtr is = c.dtr ∧
      (lastInt num .localport is).getD 7777 = c.localPort := by
    obtain ⟨s, q, sp, pa, rc, xo, rt, dt, lp⟩ := c
    split
    · rename_i h; simp [h]
    · rename_i s' h
      simp only [h, configOf, Parsed.config.injEq, Config.mk.injEq, Option.some.injEq]
  rw [step1, C105_setup]
  have bool : ∀ (d : Opt) (b : Bool), given d is = b ↔ (b = true ↔ ∃ v, (d, v) ∈ is) := by
    intro d b
    rw [← given_iff]
    cases given d is <;> cases b <;> simp
  rw [bool, bool, bool, bool, lastOr_iff, lastNumber_iff num .rts (by simp) is hn, lastNumber_iff num .dtr (by simp) is hn,
    numberOr_iff num .localport (by simp) is hn]
  simp only [C105_newline, optionsOf]
  have hb := numberOr_iff num .baud (by simp) is hn 9600 c.setup.baudrate
  have hp : c.setup.port = last .port is ↔ Last .port is c.setup.port := by rw [← last_iff]; exact eq_comm
  have hp' : last .port is = none ↔ Last .port is none := last_iff ..
  constructor
  · rintro ⟨⟨⟨n, s, ⟨nn, h1, h2⟩, ⟨sn, h3, h4⟩, h5⟩, h6⟩, h7, h8, h9, h10, h11, h12, h13, h14⟩
    refine ⟨⟨_, _, nn, sn, n, s, (lastOr_iff ..).1 rfl, (lastOr_iff ..).1 rfl, h1, h2, h3, h4, ?_, ?_⟩, ?_, h7, h8, h9, h10, h11, h12, h13, h14⟩
    · intro hc
      rw [h5]
      exact if_pos ((given_iff Opt.convert is).2 hc)
    · intro hc
      rw [h5]
      exact if_neg (by rw [(not_given Opt.convert is).2 hc]; simp)
    · rcases h6 with ⟨rfl, h6, h6'⟩ | ⟨h6, p, hpp, h6'⟩
      · exact .inl ⟨rfl, hp.1 h6, hb.1 h6'.symm⟩
      · refine .inr ⟨hp'.1 h6, p, hpp, ?_⟩
        rcases h6' with ⟨rfl, h6'⟩ | ⟨b, rfl, h6'⟩
        · exact .inl ⟨rfl, hb.1 h6'.symm⟩
        · exact .inr ⟨b, rfl, h6'⟩
  · rintro ⟨⟨net, ser, nn, sn, n, s, e1, e2, h1, h2, h3, h4, h5, h5'⟩, h6, h7, h8, h9, h10, h11, h12, h13, h14⟩
    rw [← lastOr_iff] at e1 e2
    refine ⟨⟨⟨n, s, ⟨nn, h1, by rw [e1]; exact h2⟩, ⟨sn, h3, by rw [e2]; exact h4⟩, ?_⟩, ?_⟩, h7, h8, h9, h10, h11, h12, h13, h14⟩
    · by_cases hg : given Opt.convert is = true
      · exact (h5 ((given_iff ..).1 hg)).trans (if_pos hg).symm
      · exact (h5' ((not_given ..).1 (by simpa using hg))).trans (if_neg hg).symm
    · rcases h6 with ⟨rfl, h6, h6'⟩ | ⟨h6, p, hpp, h6'⟩
      · exact .inl ⟨rfl, hp.2 h6, (hb.2 h6').symm⟩
      · refine .inr ⟨hp'.2 h6, p, hpp, ?_⟩
        rcases h6' with ⟨rfl, h6'⟩ | ⟨b, rfl, h6'⟩
        · exact .inl ⟨rfl, (hb.2 h6').symm⟩
        · exact .inr ⟨b, rfl, h6'⟩

/-- C113: every command line. It is accepted iff it is made of options, written in any of the
ways there are, and of a port and a speed at most, without `--help`, with numbers where
numbers are needed and known newlines; and what comes out is what the last of each option
says. -/
theorem C113_line (num int : Str → Option Int) (words : List Str) (c : Config) :
    parse num int words = .config c ↔
      ∃ is args, OptLine (asTable redirectManual) words is args ∧ (∀ v, (.help, v) ∉ is) ∧ NumbersOk num is ∧
        RedirectMeans num int is args c := by
  rw [redirect_table]
  unfold parse
  generalize hr : OptParse.read optTable none words = r
  obtain ⟨is, args⟩ := r
  simp only
  constructor
  · intro h
    cases hp : process num is with
    | some p =>
      rw [hp] at h
      simp only at h
      subst h
      exfalso
      clear hr
      induction is with
      | nil => cases hp
      | cons x is ih =>
        unfold process at hp
        split at hp
        · cases hp
        · split at hp
          · cases hp
          · exact ih hp
    | none =>
      obtain ⟨h1, h2⟩ := (process_none num is).1 hp
      simp only [hp] at h
      cases args with
      | none => cases h
      | some args => exact ⟨is, args, (read_iff _ optTable_distinct ..).1 hr, h1, h2, (means_iff num int is h2 args c).1 h⟩
  · rintro ⟨is', args', hl, h1, h2, h3⟩
    rw [(read_iff _ optTable_distinct ..).2 hl] at hr
    injection hr with e1 e2
    subst e1 e2
    simp only [(process_none num is').2 ⟨h1, h2⟩]
    exact (means_iff num int is' h2 args' c).2 h3

/-- C113: the help is printed, and nothing else done, iff a `--help` comes before anything that
is wrong. -/
theorem C113_help (num int : Str → Option Int) (words : List Str) (is : List (Opt × Str)) (args : List Str)
    (hl : OptLine (asTable redirectManual) words is args) :
    parse num int words = .helped ↔ ∃ a v b, is = a ++ (.help, v) :: b ∧ (∀ w, (.help, w) ∉ a) ∧ NumbersOk num a := by
  rw [redirect_table] at hl
  unfold parse
  simp only [(read_iff _ optTable_distinct ..).2 hl]
  have key : process num is = some .helped ↔
      ∃ a v b, is = a ++ (.help, v) :: b ∧ (∀ w, (.help, w) ∉ a) ∧ NumbersOk num a := by
    clear hl
    constructor
    · intro h
      induction is with
      | nil => cases h
      | cons x is ih =>
        obtain ⟨d, v⟩ := x
        unfold process at h
        split at h
        · rename_i hd
          subst hd
          exact ⟨[], v, is, rfl, by simp, by intro d w hw; cases hw⟩
        · split at h
          · cases h
          · rename_i hd hn
            obtain ⟨a, v', b, rfl, h1, h2⟩ := ih h
            have := (process_none num ((d, v) :: a)).1 (by
              unfold process
              rw [if_neg hd, if_neg hn]
              exact (process_none num a).2 ⟨h1, h2⟩)
            exact ⟨(d, v) :: a, v', b, rfl, this.1, this.2⟩
    · rintro ⟨a, v, b, rfl, h1, h2⟩
      have h := (process_none num a).2 ⟨h1, h2⟩
      clear h1 h2
      induction a with
      | nil => simp [process]
      | cons x a ih =>
        obtain ⟨d, w⟩ := x
        unfold process at h
        split at h
        · cases h
        · split at h
          · cases h
          · rename_i hd hn
            rw [List.cons_append, process, if_neg hd, if_neg hn]
            exact ih h
  rw [← key]
  cases hp : process num is with
  | some p => simp
  | none =>
    simp only [reduceCtorEq, iff_false]
    split <;> simp

/-- C113: it listens on the port of the options if the serial port could be opened, and
otherwise ends with code 1; on a command line that it does not accept it only ends. -/
theorem C113_listens (num int : Str → Option Int) (words : List Str) (opened : Bool) (hs : List Happens) (p : Int) :
    .listen p ∈ program num int words opened hs ↔
      opened = true ∧ ∃ c, parse num int words = .config c ∧ p = c.localPort := by
  have noListen : ∀ (hs : List Happens) (c : Config) (m : Main), Act.listen p ∉ (events c m hs).2 := by
    intro hs
    induction hs with
    | nil => intro c m; simp [events]
    | cons h hs ih =>
      intro c m
      simp only [events, List.mem_append, not_or]
      refine ⟨?_, ih c _⟩
      have hset : ∀ n l, Act.listen p ∉ (settle c n l).2 := by
        intro n l
        unfold settle
        cases c.spy <;> cases l.done <;> simp
      have hact : ∀ (n : Nat) (es : List Redirect.Eff), Act.listen p ∉ es.map (act n) := by
        intro n es hm
        obtain ⟨e, -, he⟩ := List.mem_map.1 hm
        cases e <;> cases he
      have hfail : ∀ l s, Act.listen p ∉ failed l s := by
        intro l s
        cases s with
        | serial a b e => simp only [failed]; split <;> simp
        | network d => cases d <;> simp only [failed] <;> (try split) <;> simp
      unfold happen
      cases hr : m.running with
      | false => simp
      | true =>
        simp only [Bool.not_true, Bool.false_eq_true, if_false]
        cases hv : m.serving with
        | none => cases h <;> simp
        | some l =>
          cases h with
          | interrupt => simp
          | accepted => simp
          | acceptFails => simp
          | turn s =>
            simp only [List.mem_append, not_or]
            refine ⟨⟨?_, hfail l s⟩, hset _ _⟩
            cases s with
            | serial a b e =>
              simp only [List.mem_append, not_or]
              refine ⟨?_, hact _ _⟩
              split <;> simp
            | network d =>
              simp only [List.mem_append, not_or]
              refine ⟨hact _ _, ?_⟩
              split <;> simp
          | readFails =>
            simp only
            split
            · exact hset _ _
            · simp
          | writeFails d =>
            simp only
            split <;> simp
  unfold program
  cases hp : parse num int words with
  | helped => simp
  | usage => simp
  | config c =>
    simp only [List.mem_append, Parsed.config.injEq, exists_eq_left']
    cases opened with
    | false =>
      simp only [Bool.false_eq_true, if_false, startUp, false_and, iff_false]
      cases c.quiet <;> simp
    | true =>
      simp only [if_true, noListen, or_false, startUp, true_and]
      cases c.quiet <;> cases c.rts <;> cases c.dtr <;> simp

/-- C113: the code it ends with if it does not run: 0 after the help, 2 for a command line that
it does not accept, 1 if the serial port cannot be opened. Whatever would have happened
later, nothing else is done but to announce itself and to try the port. -/
theorem C113_ends (num int : Str → Option Int) (words : List Str) (opened : Bool) (hs : List Happens) :
    (parse num int words = .helped → program num int words opened hs = [.exit 0]) ∧
    (parse num int words = .usage → program num int words opened hs = [.exit 2]) ∧
    ∀ c, parse num int words = .config c → opened = false → ∃ pre,
      program num int words opened hs = pre ++ [.openPort c.setup.port c.setup.baudrate c.parity c.rtscts c.xonxoff, .exit 1] ∧
      (pre = [.banner] ∧ c.quiet = false ∨ pre = [] ∧ c.quiet = true) := by
  refine ⟨fun h => ?_, fun h => ?_, fun c h ho => ?_⟩
  · simp [program, h]
  · simp [program, h]
  · subst ho
    cases hq : c.quiet with
    | false => exact ⟨[.banner], by simp [program, h, startUp, hq], .inl ⟨rfl, rfl⟩⟩
    | true => exact ⟨[], by simp [program, h, startUp, hq], .inr ⟨rfl, rfl⟩⟩

/-- C113: when it runs, the port is opened with the settings of the options before anything else
is done to it; a line is set iff its option is given, to what that says; then, and not before, it
listens, and from there on everything is as `C114` says. -/
theorem C113_starts (num int : Str → Option Int) (words : List Str) (hs : List Happens) (c : Config)
    (h : parse num int words = .config c) :
    ∃ pre lines, program num int words true hs =
        pre ++ .openPort c.setup.port c.setup.baudrate c.parity c.rtscts c.xonxoff ::
          (lines ++ .listen c.localPort :: .waiting :: (events c .start hs).2) ∧
      (pre = [.banner] ∧ c.quiet = false ∨ pre = [] ∧ c.quiet = true) ∧
      (∀ a, a ∈ lines ↔ ∃ l, a = .setRts l ∧ c.rts = some l ∨ a = .setDtr l ∧ c.dtr = some l) ∧ lines.length ≤ 2 := by
  refine ⟨if c.quiet then [] else [.banner], (match c.rts with | some l => [Act.setRts l] | none => []) ++
    (match c.dtr with | some l => [Act.setDtr l] | none => []), ?_, ?_, ?_, ?_⟩
  · simp only [program, h, startUp, if_true]
    cases c.quiet <;> cases c.rts <;> cases c.dtr <;> rfl
  · cases c.quiet <;> simp
  · intro a
    cases c.rts <;> cases c.dtr <;> simp <;> grind
  · cases c.rts <;> cases c.dtr <;> simp

example : (∃ c, parse (fun _ => some 0) (fun _ => none) ["-q".toList, "--rts".toList, "0".toList] = .config c ∧
      c.rts = some 0 ∧ c.quiet = true) ∧
    program (fun _ => some 0) (fun _ => none) ["-q".toList, "--rts=0".toList] true [] =
      [.openPort none 9600 ['N'] false false, .setRts 0, .listen 7777, .waiting] ∧
    program (fun _ => some 0) (fun _ => none) ["-q".toList] false [] = [.openPort none 9600 ['N'] false false, .exit 1] ∧
    program (fun _ => some 0) (fun _ => none) ["-x".toList] true [] = [.exit 2] := by
  refine ⟨⟨_, rfl, ?_⟩, ?_⟩ <;> decide +kernel

/-! ## The spy -/

theorem escape_cons (b : UInt8) (d : Bytes) : escape (b :: d) = escapeByte b ++ escape d := rfl

theorem escapeByte_spec : ∀ b : UInt8,
    (b = 39 ∧ escapeByte b = [92, 39]) ∨ (b = 92 ∧ escapeByte b = [92, 92]) ∨ (b = 9 ∧ escapeByte b = [92, 116]) ∨
    (b = 10 ∧ escapeByte b = [92, 110]) ∨ (b = 13 ∧ escapeByte b = [92, 114]) ∨
    ((b < 32 ∧ b ≠ 9 ∧ b ≠ 10 ∧ b ≠ 13 ∨ 127 ≤ b) ∧ escapeByte b = [92, 120, lowDigit (b / 16), lowDigit (b % 16)] ∧
      "0123456789abcdef".toList[b.toNat / 16]? = some (Char.ofNat (lowDigit (b / 16)).toNat) ∧
      "0123456789abcdef".toList[b.toNat % 16]? = some (Char.ofNat (lowDigit (b % 16)).toNat)) ∨
    (32 ≤ b ∧ b < 127 ∧ b ≠ 39 ∧ b ≠ 92 ∧ escapeByte b = [b]) := by
  apply forall_byte
  decide +kernel

theorem escape_escaped (d : Bytes) : Escaped (escape d) d := by
  induction d with
  | nil => exact .nil
  | cons b d ih =>
    rw [escape_cons]
    rcases escapeByte_spec b with ⟨rfl, e⟩ | ⟨rfl, e⟩ | ⟨rfl, e⟩ | ⟨rfl, e⟩ | ⟨rfl, e⟩ | ⟨h, e, h1, h2⟩ | ⟨h1, h2, h3, h4, e⟩ <;> rw [e]
    · exact .quote _ _ ih
    · exact .backslash _ _ ih
    · exact .tab _ _ ih
    · exact .lf _ _ ih
    · exact .cr _ _ ih
    · exact .hex _ _ _ _ _ h h1 h2 ih
    · exact .plain _ _ _ h1 h2 h3 h4 ih

theorem digit_unique : ∀ n : Fin 16, ∀ m : Fin 16, "0123456789abcdef".toList[n.val]? = "0123456789abcdef".toList[m.val]? → n = m := by
  decide +kernel

theorem isDigit_inj {x : UInt8} {n m : Nat} (hn : IsDigit x n) (hm : IsDigit x m) : n = m := by
  have h1 : n < 16 := by
    unfold IsDigit at hn
    by_cases h : n < 16
    · exact h
    · rw [List.getElem?_eq_none (show "0123456789abcdef".toList.length ≤ n from Nat.le_of_not_lt h)] at hn
      cases hn
  have h2 : m < 16 := by
    unfold IsDigit at hm
    by_cases h : m < 16
    · exact h
    · rw [List.getElem?_eq_none (show "0123456789abcdef".toList.length ≤ m from Nat.le_of_not_lt h)] at hm
      cases hm
  have := digit_unique ⟨n, h1⟩ ⟨m, h2⟩ (hn.trans hm.symm)
  injection this

/-- C114: what the spy shows can be read in one way only. -/
theorem C114_readable (t d e : Bytes) (h : Escaped t d) (h' : Escaped t e) : d = e := by
  induction h generalizing e with
  | nil => cases h'; rfl
  | plain b s d h1 h2 h3 h4 _ ih =>
    cases h' with
    | plain _ _ e _ _ _ _ h' => rw [ih _ h']
    | quote => exact absurd rfl h4
    | backslash => exact absurd rfl h4
    | tab => exact absurd rfl h4
    | lf => exact absurd rfl h4
    | cr => exact absurd rfl h4
    | hex => exact absurd rfl h4
  | quote s d _ ih =>
    cases h' with
    | plain _ _ e _ _ _ h4 => exact absurd rfl h4
    | quote _ e h' => rw [ih _ h']
  | backslash s d _ ih =>
    cases h' with
    | plain _ _ e _ _ _ h4 => exact absurd rfl h4
    | backslash _ e h' => rw [ih _ h']
  | tab s d _ ih =>
    cases h' with
    | plain _ _ e _ _ _ h4 => exact absurd rfl h4
    | tab _ e h' => rw [ih _ h']
  | lf s d _ ih =>
    cases h' with
    | plain _ _ e _ _ _ h4 => exact absurd rfl h4
    | lf _ e h' => rw [ih _ h']
  | cr s d _ ih =>
    cases h' with
    | plain _ _ e _ _ _ h4 => exact absurd rfl h4
    | cr _ e h' => rw [ih _ h']
  | hex b x y s d hb hx hy _ ih =>
    cases h' with
    | plain _ _ e _ _ _ h4 => exact absurd rfl h4
    | hex b' _ _ _ e hb' hx' hy' h' =>
      rw [ih _ h']
      have h1 := isDigit_inj hx hx'
      have h2 := isDigit_inj hy hy'
      have : b.toNat = b'.toNat := by omega
      rw [UInt8.toNat_inj.1 this]

/-! ## Connections -/

/-- The sessions stay in order whatever is done in one. -/
theorem sessions_data (n : Nat) (l : List Act) (h : Sessions n true l) (as : List Act)
    (ha : ∀ a ∈ as, a = .error ∨ (∃ d, a = .show d) ∨ (∃ d, a = .toSerial d) ∨ ∃ d, a = .toNetwork n d) :
    Sessions n true (as ++ l) := by
  induction as with
  | nil => exact h
  | cons a as ih =>
    have h' := ih fun b hb => ha b (List.mem_cons_of_mem _ hb)
    rcases ha a List.mem_cons_self with rfl | ⟨d, rfl⟩ | ⟨d, rfl⟩ | ⟨d, rfl⟩
    · exact .error _ _ h'
    · exact .shows _ _ _ h'
    · exact .toSerial _ _ _ h'
    · exact .toNetwork _ _ _ h'

/-- What is done in one turn. -/
def turnActs (c : Config) (n : Nat) (l : Loops) (s : Step) : List Act :=
  let spied := if c.spy then (shown c.setup.redirector l s).toList.map Act.show else []
  let es := (step c.setup.redirector l s).2.map (act n)
  (match s with
    | .serial .. => spied ++ es
    | .network _ => es ++ spied) ++ failed l s

theorem happen_turn (c : Config) (n : Nat) (l : Loops) (s : Step) :
    happen c ⟨n, some l, true⟩ (.turn s) =
      ((settle c n (step c.setup.redirector l s).1).1,
        turnActs c n l s ++ (settle c n (step c.setup.redirector l s).1).2) := by
  cases s <;> simp [happen, turnActs]

theorem turnActs_kind (c : Config) (n : Nat) (l : Loops) (s : Step) (a : Act) (ha : a ∈ turnActs c n l s) :
    a = .error ∨ (∃ d, a = .show d) ∨ (∃ d, a = .toSerial d) ∨ ∃ d, a = .toNetwork n d := by
  have h1 : a ∈ (if c.spy then (shown c.setup.redirector l s).toList.map Act.show else []) ∨
      a ∈ (step c.setup.redirector l s).2.map (act n) ∨ a ∈ failed l s := by
    cases s with
    | serial =>
      simp only [turnActs, List.mem_append] at ha
      rcases ha with (h | h) | h
      · exact .inl h
      · exact .inr (.inl h)
      · exact .inr (.inr h)
    | network =>
      simp only [turnActs, List.mem_append] at ha
      rcases ha with (h | h) | h
      · exact .inr (.inl h)
      · exact .inl h
      · exact .inr (.inr h)
  rcases h1 with h | h | h
  · split at h
    · obtain ⟨t, -, rfl⟩ := List.mem_map.1 h; exact .inr (.inl ⟨_, rfl⟩)
    · cases h
  · obtain ⟨e, -, rfl⟩ := List.mem_map.1 h
    cases e with
    | toNetwork d => exact .inr (.inr (.inr ⟨d, rfl⟩))
    | toSerial d => exact .inr (.inr (.inl ⟨d, rfl⟩))
  · have : a = .error := by
      cases s with
      | serial a b e => simp only [failed] at h; split at h <;> simp at h; exact h
      | network d =>
        cases d <;> simp only [failed] at h
        · split at h <;> simp at h; exact h
        · cases h
    exact .inl this

theorem events_over (c : Config) (n : Nat) (s : Option Loops) (hs : List Happens) :
    events c ⟨n, s, false⟩ hs = (⟨n, s, false⟩, []) := by
  induction hs with
  | nil => rfl
  | cons h hs ih =>
    have : happen c ⟨n, s, false⟩ h = (⟨n, s, false⟩, []) := by simp [happen]
    simp [events, this, ih]

theorem sessions_settle (c : Config) (n : Nat) (l : Loops) (as : List Act)
    (h : Sessions (settle c n l).1.count (settle c n l).1.serving.isSome as) :
    Sessions n true ((settle c n l).2 ++ as) := by
  unfold settle at h ⊢
  cases hd : l.done with
  | false =>
    simp only [hd, Bool.false_eq_true, if_false] at h ⊢
    exact h
  | true =>
    simp only [hd, if_true] at h ⊢
    cases c.spy with
    | false => exact .left _ _ h
    | true => exact .shows _ _ _ (.left _ _ h)

theorem sessions_events (c : Config) (hs : List Happens) : ∀ m : Main, m.running = true →
    Sessions m.count m.serving.isSome (events c m hs).2 := by
  induction hs with
  | nil => intro m _; exact .nil _ _
  | cons h hs ih =>
    rintro ⟨n, s, r⟩ hr
    obtain rfl : r = true := hr
    have stay : happen c ⟨n, s, true⟩ h = (⟨n, s, true⟩, []) → Sessions n s.isSome (events c ⟨n, s, true⟩ (h :: hs)).2 := by
      intro e
      simp only [events, e, List.nil_append]
      exact ih ⟨n, s, true⟩ rfl
    have settled : ∀ l l', s = some l → happen c ⟨n, s, true⟩ h = settle c n l' →
        Sessions n s.isSome (events c ⟨n, s, true⟩ (h :: hs)).2 := by
      intro l l' e1 e2
      subst e1
      simp only [events, e2]
      apply sessions_settle
      apply ih
      unfold settle
      split <;> rfl
    cases h with
    | interrupt =>
      have e : happen c ⟨n, s, true⟩ .interrupt = (⟨n, s, false⟩, [.exit 0]) := by simp [happen]
      simp only [events, e, events_over]
      exact .exit _ _ _
    | accepted =>
      cases s with
      | some l => exact stay (by simp [happen])
      | none =>
        have e : happen c ⟨n, none, true⟩ .accepted = (⟨n + 1, some .start, true⟩, [.connected (n + 1)]) := by simp [happen]
        simp only [events, e]
        exact .connected _ _ (ih ⟨n + 1, some .start, true⟩ rfl)
    | acceptFails =>
      cases s with
      | some l => exact stay (by simp [happen])
      | none =>
        have e : happen c ⟨n, none, true⟩ .acceptFails = (⟨n, none, true⟩, [.error, .waiting]) := by simp [happen]
        simp only [events, e]
        exact .retry _ _ (ih ⟨n, none, true⟩ rfl)
    | turn st =>
      cases s with
      | none => exact stay (by simp [happen])
      | some l =>
        simp only [events, happen_turn, List.append_assoc]
        refine sessions_data n _ (sessions_settle c n _ _ (ih _ ?_)) _ (turnActs_kind c n l st)
        unfold settle
        split <;> rfl
    | readFails =>
      cases s with
      | none => exact stay (by simp [happen])
      | some l =>
        cases hl : l.reader with
        | true => exact settled l _ rfl (by simp [happen, hl]; rfl)
        | false => exact stay (by simp [happen, hl])
    | writeFails d =>
      cases s with
      | none => exact stay (by simp [happen])
      | some l =>
        by_cases hl : (l.writer && d != []) = true
        · have e : happen c ⟨n, some l, true⟩ (.writeFails d) = (⟨n, some l, false⟩, [.exit 1]) := by simp [happen, hl]
          simp only [events, e, events_over]
          exact .exit _ _ _
        · exact stay (by simp only [happen, Bool.not_true, Bool.false_eq_true, if_false, if_neg hl])

/-- C114: whatever happens, one connection is served at a time: it gets only data that come
while it is served, nobody is accepted before it has been left, and after Ctrl-C or a
failure to write nothing is done. -/
theorem C114_sessions (c : Config) (hs : List Happens) : Sessions 0 false (events c .start hs).2 :=
  sessions_events c hs .start rfl

theorem settle_passed (c : Config) (n : Nat) (l : Loops) : (settle c n l).2.flatMap passed = [] := by
  unfold settle
  cases l.done <;> cases c.spy <;> rfl

theorem turnActs_passed (c : Config) (n : Nat) (l : Loops) (s : Step) :
    (turnActs c n l s).flatMap passed = (step c.setup.redirector l s).2.map (act n) := by
  have h1 : (if c.spy then (shown c.setup.redirector l s).toList.map Act.show else []).flatMap passed = [] := by
    cases c.spy <;> cases shown c.setup.redirector l s <;> rfl
  have h2 : (failed l s).flatMap passed = [] := by
    cases s with
    | serial a b e => simp only [failed]; split <;> rfl
    | network d => cases d <;> simp only [failed] <;> (try split) <;> rfl
  have h3 : ∀ es : List Redirect.Eff, (es.map (act n)).flatMap passed = es.map (act n) := by
    intro es
    induction es with
    | nil => rfl
    | cons e es ih => cases e <;> simp [act, passed, ih]
  cases s <;> simp only [turnActs, List.flatMap_append, h1, h2, h3, List.nil_append, List.append_nil]

theorem events_turns (c : Config) (n : Nat) (ts : List Step) : ∀ l : Loops,
    (events c ⟨n, some l, true⟩ (ts.map .turn)).2.flatMap passed = (run c.setup.redirector l ts).2.map (act n) := by
  have idle : ∀ ts : List Step, events c ⟨n, none, true⟩ (ts.map .turn) = (⟨n, none, true⟩, []) := by
    intro ts
    induction ts with
    | nil => rfl
    | cons t ts ih =>
      have : happen c ⟨n, none, true⟩ (.turn t) = (⟨n, none, true⟩, []) := by simp [happen]
      simp [events, this, ih]
  induction ts with
  | nil => intro l; rfl
  | cons t ts ih =>
    intro l
    simp only [List.map_cons, events, happen_turn, run, List.flatMap_append, List.map_append, turnActs_passed, settle_passed,
      List.append_nil, List.append_cancel_left_eq]
    unfold settle
    cases hd : (step c.setup.redirector l t).1.done with
    | false => exact ih _
    | true =>
      simp only [if_true, idle]
      have : ∀ (l : Loops), l.done = true → (run c.setup.redirector l ts).2 = [] := by
        rintro ⟨a, r, w⟩ h
        simp only [Loops.done, Bool.and_eq_true, Bool.not_eq_true'] at h
        obtain ⟨rfl, rfl⟩ := h
        clear ih hd
        induction ts with
        | nil => rfl
        | cons t ts ih => cases t <;> simp [run, step, ih]
      rw [this _ hd]
      rfl

/-- C114: however many connections there have been, a new one is served from the start, as
C105 and C106 say: what is passed on is what the two loops pass on. -/
theorem C114_fresh (c : Config) (n : Nat) (ts : List Step) :
    (events c ⟨n, none, true⟩ (.accepted :: ts.map .turn)).2.flatMap passed =
      (run c.setup.redirector .start ts).2.map (act (n + 1)) := by
  have e : happen c ⟨n, none, true⟩ .accepted = (⟨n + 1, some .start, true⟩, [.connected (n + 1)]) := by simp [happen]
  simp only [events, e, List.flatMap_append, events_turns]
  rfl

theorem witnessed_turn (c : Config) (hspy : c.spy = true) (n : Nat) (l : Loops) (s : Step) (as : List Act)
    (h : Witnessed c.setup.redirector as) : Witnessed c.setup.redirector (turnActs c n l s ++ as) := by
  cases s with
  | serial first rest sent =>
    by_cases hr : l.reader = true
    · by_cases hd : first ++ rest = []
      · simpa [turnActs, hspy, shown, step, failed, hr, hd] using h
      · have hd' : (first ++ rest != []) = true := by simpa using hd
        cases sent with
        | true =>
          have : turnActs c n l (.serial first rest true) =
              [.show (escape (first ++ rest)), .toNetwork n (toNetwork c.setup.redirector (first ++ rest))] := by
            simp only [turnActs, hspy, shown, step, failed, hr, hd, hd', Bool.not_true, Bool.and_false, Bool.and_true,
              Bool.false_eq_true, if_true, if_false]
            rfl
          rw [this]
          exact .sent _ _ _ _ (escape_escaped _) h
        | false =>
          have : turnActs c n l (.serial first rest false) = [.show (escape (first ++ rest)), .error] := by
            simp only [turnActs, hspy, shown, step, failed, hr, hd, hd', Bool.not_true, Bool.not_false, Bool.and_true,
              Bool.false_eq_true, if_true, if_false]
            rfl
          rw [this]
          exact .other _ _ rfl (.other _ _ rfl h)
    · simpa [turnActs, hspy, shown, step, failed, hr] using h
  | network d =>
    by_cases hw : l.writer = true
    · match d with
      | none =>
        have : turnActs c n l (.network none) = [.error] := by
          simp [turnActs, hspy, shown, step, failed, hw]
        rw [this]
        exact .other _ _ rfl h
      | some [] => simpa [turnActs, hspy, shown, step, failed, hw] using h
      | some (x :: d) =>
        have : turnActs c n l (.network (some (x :: d))) =
            [.toSerial (toSerial c.setup.redirector (x :: d)), .show (escape (toSerial c.setup.redirector (x :: d)))] := by
          simp [turnActs, hspy, shown, step, failed, hw, act]
        rw [this]
        exact .written _ _ _ (escape_escaped _) h
    · match d with
      | none => simpa [turnActs, hspy, shown, step, failed, hw] using h
      | some d => simpa [turnActs, hspy, shown, step, failed, hw] using h

/-- C114: with `--spy`, whatever happens, all that is passed on is shown, in a form that can be
read (`C114_readable`). -/
theorem C114_spy (c : Config) (hspy : c.spy = true) (hs : List Happens) :
    Witnessed c.setup.redirector (events c .start hs).2 := by
  have hset : ∀ n l as, Witnessed c.setup.redirector as → Witnessed c.setup.redirector ((settle c n l).2 ++ as) := by
    intro n l as h
    unfold settle
    cases l.done with
    | false => exact h
    | true =>
      simp only [if_true, hspy]
      exact .other _ _ rfl (.other _ _ rfl (.other _ _ rfl h))
  have main : ∀ (hs : List Happens) (m : Main), Witnessed c.setup.redirector (events c m hs).2 := by
    intro hs
    induction hs with
    | nil => intro m; exact .nil
    | cons h hs ih =>
      rintro ⟨n, s, r⟩
      simp only [events]
      generalize hm : happen c ⟨n, s, r⟩ h = x
      have hx := ih x.1
      generalize (events c x.1 hs).2 = as at hx
      subst hm
      cases r with
      | false => simpa [happen] using hx
      | true =>
        cases s with
        | none =>
          cases h with
          | interrupt => simp only [happen]; exact .other _ _ rfl hx
          | accepted => simp only [happen]; exact .other _ _ rfl hx
          | acceptFails => simp only [happen]; exact .other _ _ rfl (.other _ _ rfl hx)
          | _ => simpa [happen] using hx
        | some l =>
          cases h with
          | interrupt => simp only [happen]; exact .other _ _ rfl hx
          | accepted => simpa [happen] using hx
          | acceptFails => simpa [happen] using hx
          | turn s =>
            rw [happen_turn]
            simp only [List.append_assoc]
            exact witnessed_turn c hspy n l s _ (hset _ _ _ hx)
          | readFails =>
            simp only [happen, Bool.not_true, Bool.false_eq_true, if_false]
            split
            · exact hset _ _ _ hx
            · exact hx
          | writeFails d =>
            simp only [happen, Bool.not_true, Bool.false_eq_true, if_false]
            split
            · exact .other _ _ rfl hx
            · exact hx
  exact main hs .start

/-- C114: without `--spy`, whatever happens, nothing is shown. -/
theorem C114_quiet (c : Config) (hspy : c.spy = false) (hs : List Happens) (t : Bytes) :
    .show t ∉ (events c .start hs).2 := by
  have hset : ∀ n l, Act.show t ∉ (settle c n l).2 := by
    intro n l
    unfold settle
    cases l.done <;> simp [hspy]
  have main : ∀ (hs : List Happens) (m : Main), Act.show t ∉ (events c m hs).2 := by
    intro hs
    induction hs with
    | nil => intro m; simp [events]
    | cons h hs ih =>
      rintro ⟨n, s, r⟩
      simp only [events, List.mem_append, not_or]
      refine ⟨?_, ih _⟩
      cases r with
      | false => simp [happen]
      | true =>
        cases s with
        | none => cases h <;> simp [happen]
        | some l =>
          cases h with
          | interrupt => simp [happen]
          | accepted => simp [happen]
          | acceptFails => simp [happen]
          | turn s =>
            rw [happen_turn]
            simp only [List.mem_append, not_or]
            refine ⟨?_, hset _ _⟩
            have h2 : Act.show t ∉ failed l s := by
              cases s with
              | serial a b e => simp only [failed]; split <;> simp
              | network d => cases d <;> simp only [failed] <;> (try split) <;> simp
            have h3 : ∀ es : List Redirect.Eff, Act.show t ∉ es.map (act n) := by
              intro es hm
              obtain ⟨e, -, he⟩ := List.mem_map.1 hm
              cases e <;> cases he
            cases s <;> simp only [turnActs, hspy, Bool.false_eq_true, if_false, List.nil_append, List.append_nil, List.mem_append, not_or] <;>
              exact ⟨h3 _, h2⟩
          | readFails =>
            simp only [happen, Bool.not_true, Bool.false_eq_true, if_false]
            split
            · exact hset _ _
            · simp
          | writeFails d =>
            simp only [happen, Bool.not_true, Bool.false_eq_true, if_false]
            split <;> simp
  exact main hs .start

/-! ## A serial port that fails -/

/-- C115, for data that cannot be written: the program ends, whatever comes later, and with it
the connection. Missing: a port that cannot be read, see `C115_false`. -/
theorem C115_write_partial (c : Config) (n : Nat) (l : Loops) (hl : l.writer = true) (x : UInt8) (d : Bytes) (hs : List Happens) :
    (events c ⟨n, some l, true⟩ (.writeFails (x :: d) :: hs)).2 = [.exit 1] := by
  have e : happen c ⟨n, some l, true⟩ (.writeFails (x :: d)) = (⟨n, some l, false⟩, [.exit 1]) := by simp [happen, hl]
  simp [events, e, events_over]

/-- C115: after the serial port could not be read the connection is kept, however long it
lasts; what the network sends is still written, but nothing is sent to it any more. -/
theorem C115_mute (c : Config) (n : Nat) (ts : List Step) (h : ∀ t ∈ ts, Healthy t) :
    let r := events c ⟨n, some .start, true⟩ (.readFails :: ts.map .turn)
    r.1 = ⟨n, some ⟨true, false, true⟩, true⟩ ∧
    r.2.flatMap passed = (ts.flatMap fromNetwork).map fun d => .toSerial (toSerial c.setup.redirector d) := by
  have e : happen c ⟨n, some .start, true⟩ .readFails = (⟨n, some ⟨true, false, true⟩, true⟩, []) := by
    simp [happen, Loops.start, settle, Loops.done]
  simp only [events, e, List.nil_append, events_turns]
  constructor
  · induction ts with
    | nil => rfl
    | cons t ts ih =>
      have ih := ih fun t ht => h t (List.mem_cons_of_mem _ ht)
      have ht := h t List.mem_cons_self
      simp only [List.map_cons, events, happen_turn]
      have : (step c.setup.redirector ⟨true, false, true⟩ t).1 = ⟨true, false, true⟩ := by
        cases t with
        | serial a b s => simp [step]
        | network d => obtain ⟨x, r, rfl⟩ := ht; simp [step]
      rw [this]
      exact ih
  · induction ts with
    | nil => rfl
    | cons t ts ih =>
      have ih := ih fun t ht => h t (List.mem_cons_of_mem _ ht)
      have ht := h t List.mem_cons_self
      cases t with
      | serial a b s => simpa [run, step, fromNetwork] using ih
      | network d =>
        obtain ⟨x, r, rfl⟩ := ht
        simpa [run, step, fromNetwork, act] using ih

/-- The claim of C115. -/
def C115_claim : Prop :=
  ∀ (c : Config) (n : Nat) (ts : List Step), (∀ t ∈ ts, Healthy t) → ts ≠ [] →
    let r := events c ⟨n, some .start, true⟩ (.readFails :: ts.map .turn)
    r.1.running = false ∨ .disconnected n ∈ r.2

/-- The settings of docs/hacking.rst. -/
def hackingConfig : Config where
  setup := ⟨some "/dev/ttyUSB0".toList, 9600, ⟨none, none⟩⟩
  quiet := false
  spy := true
  parity := ['N']
  rtscts := false
  xonxoff := false
  rts := none
  dtr := none
  localPort := 10001

/-- C115 is false of the code. -/
theorem C115_false : ¬ C115_claim := by
  intro h
  have := h hackingConfig 1 [.network (some [65])] (by
    intro t ht
    simp only [List.mem_singleton] at ht
    subst ht
    exact ⟨65, [], rfl⟩) (by simp)
  exact absurd this (by decide +kernel)

/-! ## Examples -/

/-- The command line of docs/hacking.rst, with the spy. -/
example : parse (fun w => if w = "10001".toList then some 10001 else none) (fun _ => none)
    ["-P".toList, "10001".toList, "--sp".toList, "/dev/ttyUSB0".toList] = .config hackingConfig := by decide +kernel

/-- Letters together, an argument behind `=`, an argument that begins with a dash, words behind
`--`. -/
example : (match parse (fun _ => none) (fun w => if w = "-1".toList then some (-1) else none)
      ["-qc".toList, "--ser=lf".toList, "--parity".toList, "--rts".toList, "--".toList, "-x".toList, "-1".toList] with
    | .config c => (c.quiet, c.setup.port, c.setup.baudrate, c.parity, c.rts, c.setup.redirector)
    | _ => (false, none, 0, [], none, ⟨none, none⟩)) =
    (true, some "-x".toList, -1, "--rts".toList, none, ⟨some [10], some [10]⟩) := by decide +kernel

/-- A name that two options begin with, an option without its argument, and a number that is
none. -/
example : parse (fun _ => none) (fun _ => none) ["--p".toList] = .usage ∧
    parse (fun _ => none) (fun _ => none) ["--port".toList] = .usage ∧
    parse (fun _ => none) (fun _ => none) ["-bfast".toList] = .usage ∧
    parse (fun _ => none) (fun _ => none) ["-cbfast".toList, "-h".toList] = .usage ∧
    parse (fun _ => none) (fun _ => none) ["-chbfast".toList] = .helped := by decide +kernel

/-- Two connections, with the spy. -/
example : program (fun w => if w = "10001".toList then some 10001 else none) (fun _ => none)
    ["-P".toList, "10001".toList, "--sp".toList, "/dev/ttyUSB0".toList] true
    [.accepted, .turn (.network (some "|\r".toUTF8.toList)), .turn (.network (some [])), .turn (.serial [255] [39] true),
      .acceptFails, .accepted, .readFails, .turn (.serial [65] [] true), .interrupt, .accepted] =
    [.banner, .openPort (some "/dev/ttyUSB0".toList) 9600 ['N'] false false, .listen 10001, .waiting,
      .connected 1, .toSerial "|\r".toUTF8.toList, .show "|\\r".toUTF8.toList,
      .show "\\xff\\'".toUTF8.toList, .toNetwork 1 [255, 39], .show [10], .disconnected 1, .waiting,
      .error, .waiting, .connected 2, .exit 0] := by decide +kernel

end CBus.Props
