import Verif.Spec.Redirect
import Verif.Props.Buffer

/-! # C105, C106: the serial redirector passes everything on, and converts newlines -/

namespace CBus.Props
open CBus CBus.Spec CBus.Redirect

/-! ## Replacing -/

theorem splitBy_ne_nil (sep s : Bytes) : splitBy sep s ≠ [] := by
  rw [splitBy]
  split
  · simp
  · split <;> simp

theorem intercalate_pieces {l : List Bytes} (h : l ≠ []) (new a : Bytes) :
    new.intercalate (a :: l) = a ++ new ++ new.intercalate l := by
  cases l with
  | nil => exact absurd rfl h
  | cons b l => simp [List.intercalate, List.intersperse]

theorem convert_nil (old new : Bytes) : convert old new [] = [] := by
  unfold convert
  rw [splitBy]
  split
  · simp [List.intercalate]
  · rename_i i hi
    split
    · simp [List.intercalate]
    · rename_i h
      simp [find, h] at hi

theorem convert_hit (old new s : Bytes) (h : old ≠ []) :
    convert old new (old ++ s) = new ++ convert old new s := by
  have hf : find old (old ++ s) = some 0 := by
    cases old with
    | nil => exact absurd rfl h
    | cons a as =>
      simp only [List.cons_append, find]
      rw [if_pos]
      exact List.isPrefixOf_iff_prefix.2 ⟨s, rfl⟩
  unfold convert
  rw [splitBy]
  split
  · rename_i hn; rw [hf] at hn; cases hn
  · rename_i i hi
    rw [hf] at hi
    injection hi with hi
    subst hi
    rw [if_neg h, intercalate_pieces (splitBy_ne_nil _ _)]
    simp

theorem convert_keep (old new s : Bytes) (x : UInt8) (h : ¬ old <+: x :: s) :
    convert old new (x :: s) = x :: convert old new s := by
  have hne : old ≠ [] := by rintro rfl; exact h (List.nil_prefix)
  have hf : find old (x :: s) = (find old s).map (· + 1) := by
    simp only [find]
    rw [if_neg]
    exact fun hp => h (List.isPrefixOf_iff_prefix.1 hp)
  have h1 : ∀ s, find old s = none → splitBy old s = [s] := by
    intro s hs
    rw [splitBy]
    split
    · rfl
    · rename_i hi; rw [hs] at hi; cases hi
  have h2 : ∀ s i, find old s = some i → splitBy old s = s.take i :: splitBy old (s.drop (i + old.length)) := by
    intro s i hs
    rw [splitBy]
    split
    · rename_i hi; rw [hs] at hi; cases hi
    · rename_i hi
      rw [hs] at hi
      injection hi with hi
      subst hi
      rw [if_neg hne]
  unfold convert
  cases hs : find old s with
  | none => rw [h1 _ hs, h1 _ (by rw [hf, hs]; rfl)]; simp [List.intercalate]
  | some j =>
    rw [h2 _ _ hs, h2 (x :: s) (j + 1) (by rw [hf, hs]; rfl), intercalate_pieces (splitBy_ne_nil _ _),
      intercalate_pieces (splitBy_ne_nil _ _)]
    have : j + 1 + old.length = (j + old.length) + 1 := by omega
    simp [this]

/-- C106: what is converted is replaced, newline by newline, and nothing else. -/
theorem C106_replaced (old new s t : Bytes) (h : old ≠ []) : convert old new s = t ↔ Replaced old new s t := by
  constructor
  · rintro rfl
    generalize hn : s.length = n
    induction n using Nat.strongRecOn generalizing s with
    | ind n ih =>
      cases s with
      | nil => rw [convert_nil _ _]; exact .nil
      | cons x s =>
        by_cases hp : old <+: x :: s
        · obtain ⟨r, hr⟩ := hp
          rw [← hr, convert_hit _ _ _ h]
          refine .hit (ih r.length ?_ r rfl)
          have h1 := congrArg List.length hr
          have h2 : old.length ≠ 0 := fun h0 => h (List.length_eq_zero_iff.1 h0)
          rw [List.length_append] at h1
          omega
        · rw [convert_keep _ _ _ _ hp]
          exact .keep x hp (ih s.length (by simp at hn; omega) s rfl)
  · intro hr
    induction hr with
    | nil => exact convert_nil _ _
    | hit _ ih => rw [convert_hit _ _ _ h, ih]
    | keep x hp _ ih => rw [convert_keep _ _ _ _ hp, ih]

/-- The replacement of a text that is not cut inside a newline is that of its parts. -/
theorem replaced_append {old new s t s' t' : Bytes} (h : Replaced old new s t) (h' : Replaced old new s' t')
    (hcut : ∀ a b, a ≠ [] → b ≠ [] → old = a ++ b → a <:+ s → ¬ b <+: s') :
    Replaced old new (s ++ s') (t ++ t') := by
  induction h with
  | nil => exact h'
  | @hit s t _ ih =>
    rw [List.append_assoc, List.append_assoc]
    exact .hit (ih fun a b ha hb he hs => hcut a b ha hb he (hs.trans (List.suffix_append _ _)))
  | @keep s t x hp _ ih =>
    refine .keep x ?_ (ih fun a b ha hb he hs => hcut a b ha hb he (hs.trans (List.suffix_cons _ _)))
    intro hpre
    rcases List.prefix_or_prefix_of_prefix hpre (List.prefix_append (x :: s) s') with h1 | h1
    · exact hp h1
    · obtain ⟨b, hb⟩ := h1
      by_cases hbn : b = []
      · subst hbn
        exact hp (by simp at hb; rw [hb]; exact List.prefix_refl _)
      · refine hcut (x :: s) b (by simp) hbn hb.symm (List.suffix_refl _) ?_
        obtain ⟨r, hr⟩ := hpre
        rw [← hb] at hr
        have : x :: s ++ (b ++ r) = x :: s ++ s' := by simpa using hr
        exact ⟨r, List.append_cancel_left this⟩

theorem replaced_flatten {old new : Bytes} (hold : old ≠ []) : ∀ ps : List Bytes, NotCut old ps →
    Replaced old new ps.flatten (ps.map (convert old new)).flatten
  | [], _ => .nil
  | p :: ps, h => by
    simp only [List.flatten_cons, List.map_cons]
    exact replaced_append ((C106_replaced _ _ _ _ hold).1 rfl) (replaced_flatten hold ps h.2) h.1

theorem notCut_single (x : UInt8) : ∀ ps : List Bytes, NotCut [x] ps
  | [] => trivial
  | p :: ps => by
    refine ⟨?_, notCut_single x ps⟩
    intro a b ha hb he
    cases a with
    | nil => exact absurd rfl ha
    | cons y a => cases b with
      | nil => exact absurd rfl hb
      | cons z b => simp at he

/-! ## Conversations -/

theorem run_healthy (r : Redirector) : ∀ steps : List Step, (∀ s ∈ steps, Healthy s) →
    (run r .start steps).1 = .start ∧
    (run r .start steps).2.flatMap sentToNetwork = ((steps.flatMap fromSerial).map (toNetwork r)).flatten ∧
    (run r .start steps).2.flatMap sentToSerial = ((steps.flatMap fromNetwork).map (toSerial r)).flatten := by
  have hnil : toNetwork r [] = [] := by
    unfold toNetwork
    split
    · exact convert_nil _ _
    · rfl
  intro steps
  induction steps with
  | nil => intro _; simp [run]
  | cons s steps ih =>
    intro h
    obtain ⟨h1, h2, h3⟩ := ih fun x hx => h x (List.mem_cons_of_mem _ hx)
    have hs := h s List.mem_cons_self
    have key : (step r .start s).1 = .start ∧
        (step r .start s).2.flatMap sentToNetwork = ((fromSerial s).map (toNetwork r)).flatten ∧
        (step r .start s).2.flatMap sentToSerial = ((fromNetwork s).map (toSerial r)).flatten := by
      cases s with
      | serial first rest sent =>
        obtain rfl : sent = true := hs
        by_cases he : first ++ rest = []
        · have h0 := List.append_eq_nil_iff.1 he
          simp [step, Loops.start, h0.1, h0.2, fromSerial, fromNetwork, hnil]
        · simp [step, Loops.start, he, fromSerial, fromNetwork, sentToNetwork, sentToSerial]
      | network d =>
        obtain ⟨x, t, rfl⟩ := hs
        simp [step, Loops.start, fromSerial, fromNetwork, sentToNetwork, sentToSerial]
    simp only [run, key.1, List.flatMap_append, List.flatMap_cons, List.map_append, List.flatten_append, key.2.1, key.2.2,
      h1, h2, h3, and_self]

/-- C105: without `--convert`, everything that the network sends reaches the serial port as
it is, and everything that the serial port sends reaches the network, however it is cut
and interleaved. -/
theorem C105_transparent (steps : List Step) (h : ∀ s ∈ steps, Healthy s) :
    (run ⟨none, none⟩ .start steps).1 = .start ∧
    (run ⟨none, none⟩ .start steps).2.flatMap sentToNetwork = (steps.flatMap fromSerial).flatten ∧
    (run ⟨none, none⟩ .start steps).2.flatMap sentToSerial = (steps.flatMap fromNetwork).flatten := by
  obtain ⟨h1, h2, h3⟩ := run_healthy ⟨none, none⟩ steps h
  refine ⟨h1, ?_, ?_⟩
  · rw [h2]; congr 1; exact List.map_id _
  · rw [h3]; congr 1; exact List.map_id _

/-- C106, for streams in which no newline is cut in two. Missing: newlines
of two bytes of which one half comes later (`C106_false`). -/
theorem C106_converted_partial (ser net : Bytes) (hs : IsNewline ser) (hn : IsNewline net) (steps : List Step)
    (h : ∀ s ∈ steps, Healthy s) :
    (NotCut ser (steps.flatMap fromSerial) → Replaced ser net (steps.flatMap fromSerial).flatten
      ((run ⟨some ser, some net⟩ .start steps).2.flatMap sentToNetwork)) ∧
    (NotCut net (steps.flatMap fromNetwork) → Replaced net ser (steps.flatMap fromNetwork).flatten
      ((run ⟨some ser, some net⟩ .start steps).2.flatMap sentToSerial)) := by
  have hne : ∀ b, IsNewline b → b ≠ [] := by rintro b (rfl | rfl | rfl) <;> simp
  obtain ⟨-, h2, h3⟩ := run_healthy ⟨some ser, some net⟩ steps h
  rw [h2, h3]
  exact ⟨replaced_flatten (hne _ hs) _, replaced_flatten (hne _ hn) _⟩

/-- C106: a newline of one byte cannot be cut. -/
theorem C106_single (x : UInt8) (ser net : Bytes) (hs : IsNewline ser) (hn : IsNewline net) (steps : List Step)
    (h : ∀ s ∈ steps, Healthy s) :
    (ser = [x] → Replaced ser net (steps.flatMap fromSerial).flatten
      ((run ⟨some ser, some net⟩ .start steps).2.flatMap sentToNetwork)) ∧
    (net = [x] → Replaced net ser (steps.flatMap fromNetwork).flatten
      ((run ⟨some ser, some net⟩ .start steps).2.flatMap sentToSerial)) := by
  obtain ⟨h1, h2⟩ := C106_converted_partial ser net hs hn steps h
  exact ⟨fun he => h1 (he ▸ notCut_single x _), fun he => h2 (he ▸ notCut_single x _)⟩

/-- C106 is false of the code: a CR and an LF that the serial port yields in different turns
are not converted. -/
theorem C106_false : ¬ (∀ (ser net : Bytes), IsNewline ser → IsNewline net → ∀ steps : List Step,
    (∀ s ∈ steps, Healthy s) → Replaced ser net (steps.flatMap fromSerial).flatten
      ((run ⟨some ser, some net⟩ .start steps).2.flatMap sentToNetwork)) := by
  intro h
  have h1 := h [13, 10] [10] (.inr (.inr rfl)) (.inr (.inl rfl)) [.serial [13] [] true, .serial [10] [] true]
    (by simp [Healthy])
  rw [← C106_replaced _ _ _ _ (by simp)] at h1
  have h2 := run_healthy ⟨some [13, 10], some [10]⟩ [.serial [13] [] true, .serial [10] [] true] (by simp [Healthy])
  rw [h2.2.1] at h1
  revert h1
  decide +kernel

theorem replaced_lf {net s t : Bytes} (h : Replaced net [13, 10] s (10 :: t)) : ∃ s', s = 10 :: s' ∧ ¬ net <+: s := by
  generalize hu : 10 :: t = u at h
  cases h with
  | nil => cases hu
  | hit _ => simp at hu
  | keep x hp _ =>
    injection hu with h1 h2
    subst h1
    exact ⟨_, rfl, hp⟩

/-- C106: what is converted on the way to the serial port is itself again on the way back,
if newlines there are CR+LF, the default. -/
theorem C106_round_trip (net s t : Bytes) (hn : IsNewline net) (h : Replaced net [13, 10] s t) :
    Replaced [13, 10] net t s := by
  induction h with
  | nil => exact .nil
  | hit _ ih => exact .hit ih
  | @keep s t x hp hr ih =>
    refine .keep x ?_ ih
    rintro ⟨r, hr'⟩
    injection hr' with h1 h2
    subst h1
    change 10 :: r = t at h2
    rw [← h2] at hr
    obtain ⟨s', rfl, hp'⟩ := replaced_lf hr
    rcases hn with rfl | rfl | rfl
    · exact hp ⟨_, rfl⟩
    · exact hp' ⟨_, rfl⟩
    · exact hp ⟨_, rfl⟩

/-! ## Endings -/

theorem run_ended (r : Redirector) (a : Bool) : ∀ steps : List Step, run r ⟨a, false, false⟩ steps = (⟨a, false, false⟩, [])
  | [] => rfl
  | s :: steps => by
    have hs : step r ⟨a, false, false⟩ s = (⟨a, false, false⟩, []) := by cases s <;> rfl
    simp [run, hs, run_ended r a steps]

theorem run_closed (r : Redirector) : ∀ steps : List Step,
    (run r ⟨false, true, false⟩ steps = (⟨false, true, false⟩, []) ∧ steps.flatMap fromSerial = []) ∨
    (run r ⟨false, true, false⟩ steps).1 = ⟨false, false, false⟩ ∧
      ((run r ⟨false, true, false⟩ steps).2 = [] ∨
        ∃ first rest, (run r ⟨false, true, false⟩ steps).2 = [.toNetwork (toNetwork r (first ++ rest))])
  | [] => .inl ⟨rfl, rfl⟩
  | .network d :: steps => by
    have hs : step r ⟨false, true, false⟩ (.network d) = (⟨false, true, false⟩, []) := rfl
    have he : run r ⟨false, true, false⟩ (.network d :: steps) = run r ⟨false, true, false⟩ steps := by
      simp [run, hs]
    rw [he]
    rcases run_closed r steps with h | h
    · left
      refine ⟨h.1, ?_⟩
      simpa [fromSerial] using h.2
    · exact .inr h
  | .serial first rest sent :: steps => by
    right
    by_cases hd : first ++ rest = []
    · have hs : step r ⟨false, true, false⟩ (.serial first rest sent) = (⟨false, false, false⟩, []) := by
        simp [step, hd]
      simp [run, hs, run_ended]
    · cases sent
      · have hs : step r ⟨false, true, false⟩ (.serial first rest false) = (⟨false, false, false⟩, []) := by
          simp [step, hd]
        simp [run, hs, run_ended]
      · have hs : step r ⟨false, true, false⟩ (.serial first rest true) =
            (⟨false, false, false⟩, [.toNetwork (toNetwork r (first ++ rest))]) := by
          simp [step, hd]
        simp only [run, hs, run_ended, List.append_nil, true_and]
        exact .inr ⟨first, rest, rfl⟩

theorem run_unsent (r : Redirector) : ∀ steps : List Step,
    (run r ⟨false, false, true⟩ steps = (⟨false, false, true⟩, []) ∧ ∀ d, Step.network d ∉ steps) ∨
    (run r ⟨false, false, true⟩ steps).1 = ⟨false, false, false⟩ ∧
      ((run r ⟨false, false, true⟩ steps).2 = [] ∨
        ∃ d, (run r ⟨false, false, true⟩ steps).2 = [.toSerial (toSerial r d)])
  | [] => .inl ⟨rfl, by simp⟩
  | .serial first rest sent :: steps => by
    have hs : step r ⟨false, false, true⟩ (.serial first rest sent) = (⟨false, false, true⟩, []) := rfl
    have he : run r ⟨false, false, true⟩ (.serial first rest sent :: steps) = run r ⟨false, false, true⟩ steps := by
      simp [run, hs]
    rw [he]
    rcases run_unsent r steps with h | h
    · left
      refine ⟨h.1, ?_⟩
      simpa using h.2
    · exact .inr h
  | .network d :: steps => by
    right
    match d with
    | none =>
      have hs : step r ⟨false, false, true⟩ (.network none) = (⟨false, false, false⟩, []) := rfl
      simp [run, hs, run_ended]
    | some [] =>
      have hs : step r ⟨false, false, true⟩ (.network (some [])) = (⟨false, false, false⟩, []) := rfl
      simp [run, hs, run_ended]
    | some (x :: d) =>
      have hs : step r ⟨false, false, true⟩ (.network (some (x :: d))) =
          (⟨false, false, false⟩, [.toSerial (toSerial r (x :: d))]) := rfl
      simp only [run, hs, run_ended, List.append_nil, true_and]
      exact .inr ⟨_, rfl⟩

/-- C105: when the network is closed or fails, nothing more is written to the serial port, at
most one more turn of the serial port is sent to the network, and then both loops have ended. -/
theorem C105_closed (r : Redirector) (l : Loops) (hl : l.writer = true) (d : Option Bytes) (hd : d = none ∨ d = some [])
    (steps : List Step) :
    let (l', o) := run r l (.network d :: steps)
    o.flatMap sentToSerial = [] ∧ l'.writer = false ∧
    (o = [] ∨ ∃ first rest, o = [.toNetwork (toNetwork r (first ++ rest))]) ∧
    (steps.flatMap fromSerial ≠ [] → l'.done = true) := by
  obtain ⟨alive, reader, writer⟩ := l
  obtain rfl : writer = true := hl
  have hs : step r ⟨alive, reader, true⟩ (.network d) = (⟨false, reader, false⟩, []) := by
    rcases hd with rfl | rfl <;> rfl
  have he : run r ⟨alive, reader, true⟩ (.network d :: steps) = run r ⟨false, reader, false⟩ steps := by
    simp [run, hs]
  simp only [he]
  cases reader
  · simp [run_ended, Loops.done]
  · rcases run_closed r steps with ⟨h1, h2⟩ | ⟨h1, h2⟩
    · rw [h1]; simp [h2]
    · rw [h1]
      refine ⟨?_, rfl, h2, fun _ => rfl⟩
      rcases h2 with h2 | ⟨_, _, h2⟩ <;> simp [h2, sentToSerial]

/-- C105: when sending to the network fails, nothing more is sent to it, at most one more
piece from it is written to the serial port, and then both loops have ended. -/
theorem C105_unsent (r : Redirector) (l : Loops) (hl : l.reader = true) (first rest : Bytes) (hd : first ++ rest ≠ [])
    (steps : List Step) :
    let (l', o) := run r l (.serial first rest false :: steps)
    o.flatMap sentToNetwork = [] ∧ l'.reader = false ∧
    (o = [] ∨ ∃ d, o = [.toSerial (toSerial r d)]) ∧
    ((∃ d, .network d ∈ steps) → l'.done = true) := by
  obtain ⟨alive, reader, writer⟩ := l
  obtain rfl : reader = true := hl
  have hs : step r ⟨alive, true, writer⟩ (.serial first rest false) = (⟨false, false, writer⟩, []) := by
    simp [step, hd]
  have he : run r ⟨alive, true, writer⟩ (.serial first rest false :: steps) = run r ⟨false, false, writer⟩ steps := by
    simp [run, hs]
  simp only [he]
  cases writer
  · simp [run_ended, Loops.done]
  · rcases run_unsent r steps with ⟨h1, h2⟩ | ⟨h1, h2⟩
    · rw [h1]; simp [h2]
    · rw [h1]
      refine ⟨?_, rfl, h2, fun _ => rfl⟩
      rcases h2 with h2 | ⟨_, h2⟩ <;> simp [h2, sentToNetwork]

/-! ## Options -/

/-- C105: newlines are known by their names, in upper or lower case, and no others are. -/
theorem C105_newline (mode : Str) (b : Bytes) :
    newline mode = some b ↔ ∃ name, NewlineName name b ∧ mode.map asciiUpper = name.toList := by
  unfold newline
  constructor
  · intro h
    simp only at h
    split at h
    · injection h with h; subst h; rename_i hm; exact ⟨_, .cr, hm⟩
    · split at h
      · injection h with h; subst h; rename_i hm; exact ⟨_, .lf, hm⟩
      · split at h
        · injection h with h; subst h; rename_i hm
          rcases hm with hm | hm
          · exact ⟨_, .crPlusLf, hm⟩
          · exact ⟨_, .crlf, hm⟩
        · cases h
  · rintro ⟨name, hn, hm⟩
    simp only [hm]
    cases hn <;> decide

/-- C105: the port and its speed come from the options or from the arguments but not from
both, the newlines from the options; without `--convert` none are converted. -/
theorem C105_setup (int : Str → Option Int) (o : Options) (args : List Str) (s : Setup) :
    setup int o args = some s ↔
      (∃ net ser, newline o.netNewline = some net ∧ newline o.serNewline = some ser ∧
        s.redirector = if o.convert then ⟨some ser, some net⟩ else ⟨none, none⟩) ∧
      ((args = [] ∧ s.port = o.port ∧ s.baudrate = o.baudrate) ∨
        o.port = none ∧ ∃ p, s.port = some p ∧
          ((args = [p] ∧ s.baudrate = o.baudrate) ∨ ∃ b, args = [p, b] ∧ int b = some s.baudrate)) := by
  obtain ⟨sp, sb, sr⟩ := s
  unfold setup
  cases hn : newline o.netNewline with
  | none =>
    simp only [reduceCtorEq, false_and, exists_false, iff_false]
    repeat' split
    all_goals simp
  | some net =>
    cases hs : newline o.serNewline with
    | none =>
      simp only [reduceCtorEq, false_and, and_false, exists_false, iff_false]
      repeat' split
      all_goals simp
    | some ser =>
      match args with
      | [] =>
        simp only [Option.map_some, Option.some.injEq, Setup.mk.injEq]
        constructor
        · rintro ⟨rfl, rfl, rfl⟩
          exact ⟨⟨net, ser, rfl, rfl, rfl⟩, .inl ⟨trivial, rfl, rfl⟩⟩
        · rintro ⟨⟨_, _, rfl, rfl, rfl⟩, ⟨-, rfl, rfl⟩ | ⟨-, p, -, ⟨h, -⟩ | ⟨b, h, -⟩⟩⟩
          · exact ⟨rfl, rfl, rfl⟩
          · cases h
          · cases h
      | [p] =>
        cases hp : o.port with
        | some q => simp
        | none =>
          simp only [Option.isSome_none, Bool.false_eq_true, if_false, Option.map_some, Option.some.injEq, Setup.mk.injEq]
          constructor
          · rintro ⟨rfl, rfl, rfl⟩
            exact ⟨⟨net, ser, rfl, rfl, rfl⟩, .inr ⟨trivial, p, rfl, .inl ⟨rfl, rfl⟩⟩⟩
          · rintro ⟨⟨_, _, rfl, rfl, rfl⟩, ⟨h, -⟩ | ⟨-, q, rfl, ⟨h, rfl⟩ | ⟨b, h, -⟩⟩⟩
            · cases h
            · injection h with h; subst h; exact ⟨rfl, rfl, rfl⟩
            · cases h
      | [p, b] =>
        cases hp : o.port with
        | some q => simp
        | none =>
          simp only [Option.isSome_none, Bool.false_eq_true, if_false]
          cases hb : int b with
          | none =>
            simp only [reduceCtorEq, false_iff]
            rintro ⟨-, ⟨h, -⟩ | ⟨-, q, -, ⟨h, -⟩ | ⟨b', h, h'⟩⟩⟩
            · cases h
            · cases h
            · injection h with h1 h2
              injection h2 with h2
              subst h2
              rw [hb] at h'; cases h'
          | some i =>
            simp only [Option.map_some, Option.some.injEq, Setup.mk.injEq]
            constructor
            · rintro ⟨rfl, rfl, rfl⟩
              exact ⟨⟨net, ser, rfl, rfl, rfl⟩, .inr ⟨trivial, p, rfl, .inr ⟨b, rfl, hb⟩⟩⟩
            · rintro ⟨⟨_, _, rfl, rfl, rfl⟩, ⟨h, -⟩ | ⟨-, q, rfl, ⟨h, rfl⟩ | ⟨b', h, h'⟩⟩⟩
              · cases h
              · cases h
              · injection h with h1 h2
                injection h2 with h2
                subst h1 h2
                rw [hb] at h'
                injection h' with h'
                exact ⟨rfl, h', rfl⟩
      | _ :: _ :: _ :: _ =>
        simp

/-- C105: a client behind the redirector does what it would do if it were connected to the
serial port: what it is given is what the serial port yields, so (C40) all that it does is
the same. -/
theorem C105_client {π : Type} (hook : Event → Proc Client (CBus.Eff π) Unit) (c : Conn Client)
    (hidle : ¬ PciComplete c.buf) (steps : List Step) (h : ∀ s ∈ steps, Healthy s) (chunks : List Bytes)
    (hc : chunks.flatten = (run ⟨none, none⟩ .start steps).2.flatMap sentToNetwork)
    (hf : Fits maxBufferSize (Client.handle hook) chunks c)
    (hs : Fits maxBufferSize (Client.handle hook) (steps.flatMap fromSerial) c) :
    let r1 := feed maxBufferSize (Client.handle hook) chunks c
    let r2 := feed maxBufferSize (Client.handle hook) (steps.flatMap fromSerial) c
    r1.2 = r2.2 ∧ r1.1.st = r2.1.st ∧ (r1.2.2 = .ok () → r1.1 = r2.1) :=
  C40_client hook c hidle chunks _ (hc.trans (C105_transparent steps h).2.1) hf hs

/-- The example of docs/hacking.rst, with its interleaving: a command goes to the interface in
two pieces, and its confirmation and an event come back. -/
example :
    let r := (setup (fun _ => none) { port := some "/dev/ttyUSB0".toList } []).map Setup.redirector
    r = some ⟨none, none⟩ ∧
    run ⟨none, none⟩ .start [.network (some (ascii "\\0538")), .serial [] [] true, .network (some (ascii "007964g\r")),
      .serial (ascii "g") (ascii ".05") true, .serial (ascii "0") (ascii "1380079646") true, .network (some [])] =
      (⟨false, true, false⟩, [.toSerial (ascii "\\0538"), .toSerial (ascii "007964g\r"), .toNetwork (ascii "g.05"),
        .toNetwork (ascii "01380079646")]) := by decide +kernel

/-- With `--convert`. -/
example :
    (run ⟨some [13, 10], some [10]⟩ .start [.serial (ascii "a") (ascii "\r\nb\r\r\n") true, .network (some (ascii "c\nd\r\n"))]).2 =
      [.toNetwork (ascii "a\nb\r\n"), .toSerial (ascii "c\r\nd\r\r\n")] := by decide +kernel

end CBus.Props
