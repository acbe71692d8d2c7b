import Verif.Props.Outlet
import Verif.Spec.Clockwork

/-! # C164: the time on the network does not run backwards -/

namespace CBus.Props
open CBus CBus.Spec

theorem byteOf_inj {a b : Nat} (ha : a < 256) (hb : b < 256) (h : byteOf a = byteOf b) : a = b := by
  unfold byteOf at h
  have := congrArg UInt8.toNat h
  rw [UInt8.toNat_ofNat', UInt8.toNat_ofNat'] at this
  omega

theorem byteOf_mod (a : Nat) : (byteOf a).toNat = a % 256 := by
  unfold byteOf
  rw [UInt8.toNat_ofNat']
  omega

theorem day_small {d : PyDate} (h : d.Valid) : d.day < 32 := by
  have := h.2.2.2.2.2
  have : daysInMonth d.year d.month ≤ 31 := by
    unfold daysInMonth
    repeat' split
    all_goals omega
  omega

/-- A line tells one time only. -/
theorem clockLine_stamp {t t' : PyDateTime} {c c' : UInt8} {line : Bytes} (ht : DateTimeOk t) (ht' : DateTimeOk t')
    (h : ClockLine t c line) (h' : ClockLine t' c' line) : t.date = t'.date ∧ stamp t = stamp t' := by
  obtain ⟨w, digits, -, hs, rfl⟩ := h
  obtain ⟨w', digits', -, hs', e⟩ := h'
  rw [framed_digits e] at hs
  have e := spelled_body hs hs'
  simp only [clockBytes, List.cons_append, List.nil_append, List.cons.injEq, true_and, and_true] at e
  obtain ⟨e1, e2, e3, e4, -, e5, e6, e7⟩ := e
  have d1 := day_small ht.1
  have d2 := day_small ht'.1
  obtain ⟨⟨h1, h2, h3, h4, h5, h6⟩, h7, h8, h9, -⟩ := ht
  obtain ⟨⟨g1, g2, g3, g4, g5, g6⟩, g7, g8, g9, -⟩ := ht'
  have m := byteOf_inj (by omega) (by omega) e3
  have d := byteOf_inj (by omega) (by omega) e4
  have hh := byteOf_inj (by omega) (by omega) e5
  have mi := byteOf_inj (by omega) (by omega) e6
  have se := byteOf_inj (by omega) (by omega) e7
  have y1 := congrArg UInt8.toNat e1
  have y2 := congrArg UInt8.toNat e2
  rw [byteOf_mod, byteOf_mod] at y2
  have y1 : t.date.year / 256 = t'.date.year / 256 := by
    have k : ∀ n : Nat, ((n : Int) / 256) = ((n / 256 : Nat) : Int) := by intro n; omega
    rw [k, k, byteOf_mod, byteOf_mod] at y1
    omega
  have y : t.date.year = t'.date.year := by omega
  refine ⟨?_, ?_⟩
  · cases hd : t.date
    cases hd' : t'.date
    rw [hd, hd'] at m d y
    simp only at m d y
    rw [m, d, y]
  · unfold stamp
    rw [y, m, d, hh, mi, se]

theorem tells_unique {ls : List Bytes} {ts : List PyDateTime} (h : TimesTold ls ts) :
    ∀ ts', TimesTold ls ts' → ts.map stamp = ts'.map stamp := by
  induction h with
  | nil => intro ts' h'; cases h'; rfl
  | time t c line ls ts ht h _ ih =>
    intro ts' h'
    cases h' with
    | time t' c' _ _ ts' ht' h' hr' => rw [List.map_cons, List.map_cons, (clockLine_stamp ht ht' h h').2, ih _ hr']
    | other _ _ _ h' => exact absurd h (h' _ _)
  | other line ls ts h _ ih =>
    intro ts' h'
    cases h' with
    | time t' c' _ _ ts' ht' h' hr' => exact absurd h' (h _ _)
    | other _ _ _ _ hr' => exact ih _ hr'

theorem tells_append {a b : List Bytes} {ta tb : List PyDateTime} (ha : TimesTold a ta) (hb : TimesTold b tb) : TimesTold (a ++ b) (ta ++ tb) := by
  induction ha with
  | nil => exact hb
  | time t c line ls ts ht h _ ih => exact .time t c line _ _ ht h ih
  | other line ls ts h _ ih => exact .other line _ _ h ih

/-- The readings between two counts. -/
def clockTimes (now : Nat → PyDateTime) (a b : Nat) : List PyDateTime := (List.range' a (b - a)).map now

theorem readings_append (now : Nat → PyDateTime) {a b c : Nat} (h1 : a ≤ b) (h2 : b ≤ c) :
    clockTimes now a b ++ clockTimes now b c = clockTimes now a c := by
  unfold clockTimes
  rw [← List.map_append]
  have e : b = a + (b - a) := by omega
  have : List.range' a (b - a) ++ List.range' b (c - b) = List.range' a (c - a) := by
    have h := @List.range'_append_1 a (b - a) (c - b)
    rw [← e] at h
    rw [h]
    congr 1
    omega
  rw [this]

theorem readings_one (now : Nat → PyDateTime) (a : Nat) : clockTimes now a (a + 1) = [now a] := by
  simp [clockTimes]

theorem readings_none (now : Nat → PyDateTime) (a : Nat) : clockTimes now a a = [] := by
  simp [clockTimes]

theorem writes_ext (l : List MqttEff) : writesOf (l.map (Eff.ext (π := MqttEff))) = [] := by
  simp [writesOf, List.filterMap_map, Function.comp_def]

theorem handles_tells {m : Manner MqttEff} (hnow : ∀ n, DateTimeOk (m.now n)) {es : List Event} {k k' : Count}
    {o : List (Eff MqttEff)} (h : Handles m es k o k') :
    k.reads ≤ k'.reads ∧ TimesTold (writesOf o) (clockTimes m.now k.reads k'.reads) := by
  induction h with
  | nil k => exact ⟨Nat.le_refl _, by rw [readings_none]; exact .nil⟩
  | clock src es k k' line o hc hl _ ih =>
    obtain ⟨h1, h2⟩ := ih
    refine ⟨by simp only at h1; omega, ?_⟩
    rw [← readings_append m.now (Nat.le_succ k.reads) h1, readings_one]
    exact .time _ _ _ _ _ (hnow _) hl h2
  | noClock src es k k' o _ _ ih => exact ih
  | other e es k k' o _ _ ih =>
    refine ⟨ih.1, ?_⟩
    have : writesOf (Eff.event e :: (m.says e).map Eff.ext ++ o) = writesOf o := by
      rw [writesOf_append]
      show writesOf ((m.says e).map Eff.ext) ++ _ = _
      rw [writes_ext]
      rfl
    rw [this]
    exact ih.2

theorem hears_tells {m : Manner MqttEff} (hnow : ∀ n, DateTimeOk (m.now n)) {d d' : Bytes} {k k' : Count}
    {o : List (Eff MqttEff)} {r : Py Unit} (h : Hears m d k o d' k' r) :
    k.reads ≤ k'.reads ∧ TimesTold (writesOf o) (clockTimes m.now k.reads k'.reads) := by
  induction h with
  | waits => exact ⟨Nat.le_refl _, by rw [readings_none]; exact .nil⟩
  | fault => exact ⟨Nat.le_refl _, by rw [readings_none]; exact .nil⟩
  | skips _ _ _ _ _ _ _ _ _ _ ih => exact ih
  | message d p n k k1 k2 o1 o2 d' r h ho _ ih =>
    have h1 := handles_tells hnow ho
    refine ⟨Nat.le_trans h1.1 ih.1, ?_⟩
    rw [writesOf_append, ← readings_append m.now h1.1 ih.1]
    exact tells_append h1.2 ih.2

theorem converses_tells {m : Manner MqttEff} (hnow : ∀ n, DateTimeOk (m.now n)) {b b' : Bytes} {k k' : Count} {ds : List Bytes}
    {o : List (Eff MqttEff)} {r : Py Unit} (h : Converses m b k ds o b' k' r) :
    k.reads ≤ k'.reads ∧ TimesTold (writesOf o) (clockTimes m.now k.reads k'.reads) := by
  induction h with
  | silence => exact ⟨Nat.le_refl _, by rw [readings_none]; exact .nil⟩
  | huge => exact ⟨Nat.le_refl _, by rw [readings_none]; exact .nil⟩
  | overflow => exact ⟨Nat.le_refl _, by rw [readings_none]; exact .nil⟩
  | ends _ _ _ _ _ _ _ _ _ h => exact hears_tells hnow h
  | goesOn b k k1 k2 d ds o1 o2 b1 b2 r hl h _ ih =>
    have h1 := hears_tells hnow h
    refine ⟨Nat.le_trans h1.1 ih.1, ?_⟩
    rw [writesOf_append, ← readings_append m.now h1.1 ih.1]
    exact tells_append h1.2 ih.2

theorem setting_no_clock (s : String) (c : UInt8) (h : s ∈ settings) (t : PyDateTime) (c' : UInt8) :
    ¬ ClockLine t c' (ascii s ++ [c, 0x0d]) := by
  rintro ⟨w, digits, -, -, e⟩
  simp only [settings, List.mem_cons, List.not_mem_nil, or_false] at h
  rcases h with rfl | rfl | rfl <;> exact absurd (congrArg List.head? e) (by simp [ascii])

theorem reset_no_clock (t : PyDateTime) (c : UInt8) : ¬ ClockLine t c (ascii "~\r") := by
  rintro ⟨w, digits, -, -, e⟩
  exact absurd (congrArg List.head? e) (by simp; decide)

theorem setBytes_no_clock {m : SetMessage} {ga : Int} {body digits : Bytes} (h : SetBytes m ga body) (hs : Spelled true body digits)
    (c : UInt8) (t : PyDateTime) (c' : UInt8) : ¬ ClockLine t c' (0x5c :: digits ++ [c, 0x0d]) := by
  rintro ⟨w, digits', -, hs', e⟩
  rw [framed_digits e] at hs
  have e := spelled_body hs hs'
  cases h <;> simp at e

/-- One step: the times that are told are readings of the clock that are made in this step, in their order, each once. -/
theorem does_tells {u : UniTable} {read : Bytes → JVal → Prop} {now : Nat → PyDateTime} (hnow : ∀ n, DateTimeOk (now n)) {ts : Int}
    {x : DaemonStep} {d d' : DaemonState} {o : List (Eff MqttEff)} {r : Py Unit} (h : Does u read now ts x d o d' r) :
    d.count.reads ≤ d'.count.reads ∧
    ∃ l, TimesTold (writesOf o) l ∧ l.Sublist (clockTimes now d.count.reads d'.count.reads) ∧
      (d.connected = true → l = clockTimes now d.count.reads d'.count.reads) := by
  have same : ∀ {a b : Nat} {o : List (Eff MqttEff)}, a = b → writesOf o = [] → a ≤ b ∧
      ∃ l, TimesTold (writesOf o) l ∧ l.Sublist (clockTimes now a b) ∧ (d.connected = true → l = clockTimes now a b) := by
    intro a b o e ho
    subst e
    exact ⟨Nat.le_refl _, [], by rw [ho]; exact .nil, List.nil_sublist _, fun _ => (readings_none now a).symm⟩
  cases h with
  | made =>
    refine ⟨Nat.le_refl _, [], ?_, List.nil_sublist _, fun _ => (readings_none now _).symm⟩
    have hw : writesOf (setUp ts d.count.codes) = [ascii "~\r", ascii "~\r", ascii "~\r",
        ascii "A3210038" ++ [codeAt d.count.codes, 0x0d], ascii "A342000E" ++ [codeAt (d.count.codes + 1), 0x0d],
        ascii "A3300059" ++ [codeAt (d.count.codes + 2), 0x0d]] := by
      unfold setUp
      split <;> rfl
    rw [hw]
    exact .other _ _ _ reset_no_clock (.other _ _ _ reset_no_clock (.other _ _ _ reset_no_clock
      (.other _ _ _ (setting_no_clock "A3210038" _ (by simp [settings]))
        (.other _ _ _ (setting_no_clock "A342000E" _ (by simp [settings]))
          (.other _ _ _ (setting_no_clock "A3300059" _ (by simp [settings])) .nil)))))
  | receive _ b b' o k r h =>
    have h1 := converses_tells (m := ⟨true, fun e => if d.broker then eventMessages e else [], now⟩) hnow h
    exact ⟨h1.1, _, h1.2, List.Sublist.refl _, fun _ => rfl⟩
  | tick _ line hc hl =>
    refine ⟨Nat.le_succ _, [now d.count.reads], .time _ _ _ _ _ (hnow _) hl .nil, ?_, fun _ => ?_⟩
    · rw [readings_one]; exact List.Sublist.refl _
    · exact (readings_one now _).symm
  | tickDown =>
    rename_i hc
    exact ⟨Nat.le_succ _, [], .nil, List.nil_sublist _, fun h => absurd h (by rw [hc]; decide)⟩
  | broker => exact same rfl (writes_ext _)
  | message =>
    refine ⟨Nat.le_refl _, [], ?_, List.nil_sublist _, fun _ => (readings_none now _).symm⟩
    rename_i hsb hsp _ _
    show TimesTold (_ :: writesOf (List.map Eff.ext _)) []
    rw [writes_ext]
    exact .other _ _ _ (setBytes_no_clock hsb hsp _) .nil
  | _ => exact same rfl rfl

theorem lives_tells {u : UniTable} {read : Bytes → JVal → Prop} {now : Nat → PyDateTime} (hnow : ∀ n, DateTimeOk (now n)) {ts : Int}
    {xs : List DaemonStep} {d d' : DaemonState} {os : List (List (Eff MqttEff) × Py Unit)}
    (h : Lives u read now ts xs d os d') : d.count.reads ≤ d'.count.reads ∧
    ∃ l, TimesTold (os.flatMap (writesOf ·.1)) l ∧ l.Sublist (clockTimes now d.count.reads d'.count.reads) := by
  induction h with
  | nil => exact ⟨Nat.le_refl _, [], .nil, List.nil_sublist _⟩
  | cons x xs d d1 d2 o r os h _ ih =>
    obtain ⟨h1, l, h2, h3, -⟩ := does_tells hnow h
    obtain ⟨g1, l', g2, g3⟩ := ih
    refine ⟨Nat.le_trans h1 g1, l ++ l', ?_, ?_⟩
    · rw [List.flatMap_cons]; exact tells_append h2 g2
    · rw [← readings_append now h1 g1]; exact List.Sublist.append h3 g3

/-- C164: whatever happens to the daemon, the times that it tells the network are readings of its clock, in the order in
which they are made, each told no more than once. -/
theorem C164_readings (u : UniTable) (loads : Bytes → Option JVal) (now : Nat → PyDateTime) (hnow : ∀ n, DateTimeOk (now n))
    (c : Conn Client) (hk : c.st.nextConf < 20) (xs : List DaemonStep) (hx : OnlyConnected c.st.connected xs)
    (c' : Conn Client) (os : List (List (Eff MqttEff) × Py Unit)) (h : daemonRun u loads now xs c = (c', os)) :
    ∃ l, TimesTold (os.flatMap (writesOf ·.1)) l ∧ l.Sublist (clockTimes now c.st.clockReads c'.st.clockReads) := by
  obtain ⟨d, hl, rfl⟩ := (C104_daemon u loads now hnow c hk xs hx c' os).1 h
  exact (lives_tells hnow hl).2

/-- C164: and no time is told that was read earlier: in each step, while there is a connection, the times that are told are
those that are read in this very step, date and time in one reading. -/
theorem C164_fresh (u : UniTable) (loads : Bytes → Option JVal) (now : Nat → PyDateTime) (hnow : ∀ n, DateTimeOk (now n))
    (c : Conn Client) (hk : c.st.nextConf < 20) (x : DaemonStep) (hc : c.st.connected = true) :
    TimesTold (writesOf (daemonDo u loads now x c).2.1)
      (clockTimes now c.st.clockReads (daemonDo u loads now x c).1.st.clockReads) := by
  have hx : OnlyConnected c.st.connected [x] := by
    rw [hc]
    cases x with
    | made => exact .made _ _ (.nil _)
    | lost => exact .lost _ _ (.nil _)
    | receive d => exact .receive _ _ (.nil _)
    | tick => exact .tick _ _ (.nil _)
    | broker l => exact .broker _ _ _ (.nil _)
    | message t p => exact .message _ _ _ _ (.nil _)
  obtain ⟨d, h, e⟩ := (C104_daemon u loads now hnow c hk [x] hx (daemonDo u loads now x c).1
    [((daemonDo u loads now x c).2.1, (daemonDo u loads now x c).2.2)]).1 rfl
  generalize daemonDo u loads now x c = y at h e ⊢
  cases h with
  | cons _ _ _ d1 _ _ _ _ h hr =>
    cases hr
    obtain ⟨-, l, h2, -, h4⟩ := does_tells hnow h
    rw [e]
    rw [h4 hc] at h2
    exact h2

theorem stamps_ordered (now : Nat → PyDateTime) (hm : ∀ n, stamp (now n) ≤ stamp (now (n + 1))) (a b : Nat) :
    ((clockTimes now a b).map stamp).Pairwise (· ≤ ·) := by
  have mono : ∀ k n, stamp (now n) ≤ stamp (now (n + k)) := by
    intro k
    induction k with
    | zero => exact fun n => Nat.le_refl _
    | succ k ih => exact fun n => Nat.le_trans (ih n) (hm (n + k))
  unfold clockTimes
  rw [List.map_map, List.pairwise_map]
  refine List.Pairwise.imp ?_ (List.pairwise_lt_range' (s := a) (n := b - a) (step := 1))
  intro i j hij
  have := mono (j - i) i
  rw [show i + (j - i) = j by omega] at this
  exact this

/-- C164: as long as the clock of the computer does not go back, the time on the network does not. -/
theorem C164_forward (u : UniTable) (loads : Bytes → Option JVal) (now : Nat → PyDateTime) (hnow : ∀ n, DateTimeOk (now n))
    (hm : ∀ n, stamp (now n) ≤ stamp (now (n + 1)))
    (c : Conn Client) (hk : c.st.nextConf < 20) (xs : List DaemonStep) (hx : OnlyConnected c.st.connected xs)
    (ts : List PyDateTime) (ht : TimesTold ((daemonRun u loads now xs c).2.flatMap (writesOf ·.1)) ts) :
    (ts.map stamp).Pairwise (· ≤ ·) := by
  obtain ⟨l, h1, h2⟩ := C164_readings u loads now hnow c hk xs hx _ _ rfl
  rw [← tells_unique h1 ts ht]
  exact (stamps_ordered now hm _ _).sublist (h2.map stamp)

/-- A clock that is read each second of the minute after noon, and stands still after that. -/
def minuteClock (n : Nat) : PyDateTime := { date := ⟨2020, 2, 29⟩, time := { hour := 12, minute := 0, second := min n 59, microsecond := 0 } }

/-- A time signal, two requests in one piece of data, and another time signal: four readings, told in their order. -/
example : (∀ n, DateTimeOk (minuteClock n)) ∧ (∀ n, stamp (minuteClock n) ≤ stamp (minuteClock (n + 1))) ∧
    OnlyConnected true [.tick, .receive (ascii "0505DF00110303\r\n0505DF00110303\r\n"), .tick] ∧
    (daemonRun .ascii (fun _ => none) minuteClock
      [.tick, .receive (ascii "0505DF00110303\r\n0505DF00110303\r\n"), .tick]
      ⟨[], { timesync := 300, future := .pending, connected := true }⟩).2.map (fun o => writesOf o.1) =
    [[ascii "\\05DF000E0207E4021D050D010C0000FFE4h\r"],
     [ascii "\\05DF000E0207E4021D050D010C0001FFE3i\r", ascii "\\05DF000E0207E4021D050D010C0002FFE2j\r"],
     [ascii "\\05DF000E0207E4021D050D010C0003FFE1k\r"]] := by
  refine ⟨?_, ?_, .tick _ _ (.receive _ _ (.tick _ _ (.nil _))), ?_⟩
  · intro n
    refine ⟨by show PyDate.Valid ⟨2020, 2, 29⟩; simp [PyDate.Valid]; decide, ?_⟩
    show PyTime.Valid _
    simp [PyTime.Valid, minuteClock]
    omega
  · intro n
    simp only [stamp, minuteClock]
    omega
  · decide +kernel

end CBus.Props
