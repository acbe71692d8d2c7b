import Verif.Props.Misheard
import Verif.Props.EndToEnd

/-! # C176: commands of which some are damaged or lost on the way to the simulated PCI -/

namespace CBus.Props
open CBus CBus.Spec
variable {π : Type}

/-- A line of which one character is changed that is neither the first nor one of the last two, to anything but a CR
or `?`. -/
inductive Dented : Bytes → Bytes → Prop
  | mk (a b : Bytes) (x c c' code cr : UInt8) (hne : c' ≠ c) (hcr : c' ≠ 0x0d) (hq : c' ≠ 0x3f) :
      Dented (x :: (a ++ c :: b) ++ [code, cr]) (x :: (a ++ c' :: b) ++ [code, cr])

/-- Lines that are written, which of them arrive whole, and what arrives: the others are damaged or lost. -/
inductive Through : List Bytes → List Bool → List Bytes → Prop
  | nil : Through [] [] []
  | whole (w : Bytes) (ws : List Bytes) (bs : List Bool) (ls : List Bytes) (h : Through ws bs ls) :
      Through (w :: ws) (true :: bs) (w :: ls)
  | dented (w l : Bytes) (ws : List Bytes) (bs : List Bool) (ls : List Bytes) (hd : Dented w l) (h : Through ws bs ls) :
      Through (w :: ws) (false :: bs) (l :: ls)
  | lost (w : Bytes) (ws : List Bytes) (bs : List Bool) (ls : List Bytes) (h : Through ws bs ls) :
      Through (w :: ws) (false :: bs) ls

/-- Those of a list that are marked. -/
def spared {α : Type} (bs : List Bool) (xs : List α) : List α :=
  (bs.zip xs).filterMap fun i => if i.1 then some i.2 else none

/-- What each of the calls of a session is to bring about, if the clock was read `k` times before. -/
def eventsEach (now : Nat → PyDateTime) : Nat → List ClientCall → List (List SEvent)
  | _, [] => []
  | k, call :: calls => callEvents (now k) call :: eventsEach now (k + if call = .clockNow then 1 else 0) calls

/-- A damaged command is passed over. -/
theorem run_dented (rand : Nat → Int) (t : Server) (hc : t.connected = true) (hcs : t.checksum = true) (m l : Bytes)
    (code : UInt8) (hcode : code ∈ confirmationCodes) (hlen : (b16encode (addChecksum m)).length ≤ 44)
    (hd : Dented (0x5c :: b16encode (addChecksum m) ++ [code, 0x0d]) l) :
    Run (Server.handle rand) ServerG 47 t l (if t.basic then [.echo l] else []) t := by
  have hp : HexPairs (b16encode (addChecksum m)) (addChecksum m) := (b16decode_iff _ _).1 (b16decode_b16encode _)
  have hs : SumsToZero (addChecksum m) := by
    unfold SumsToZero
    rw [← sumBytes_eq_sum]
    exact addChecksum_sum m
  generalize hw : 0x5c :: b16encode (addChecksum m) ++ [code, 0x0d] = w at hd
  obtain ⟨a, b, x, c, c', code', cr, hne, hcr, hq⟩ := hd
  have e1 : [0x5c] ++ b16encode (addChecksum m) ++ [code, 0x0d] = [x] ++ (a ++ c :: b) ++ [code', cr] := hw
  obtain ⟨e2, e3⟩ := List.append_inj' e1 rfl
  obtain ⟨e4, e5⟩ := List.append_inj e2 rfl
  simp only [List.cons.injEq, and_true] at e3 e4
  obtain ⟨rfl, rfl⟩ := e3
  subst e4
  rw [e5] at hp hlen
  have hdig := hexPairs_digits hp
  obtain ⟨k1, k2, k3, -⟩ := conf_not_special code hcode
  have hno : ∀ y, ¬ HexDigit y → (0x5c : UInt8) ≠ y → c' ≠ y → code ≠ y → y ∉ 0x5c :: (a ++ c' :: b) ++ [code] := by
    intro y hy h0 h1 h2 h
    simp only [List.cons_append, List.mem_cons, List.mem_append, List.not_mem_nil, or_false] at h
    rcases h with h | (h | h | h) | h
    · exact h0 h.symm
    · exact hy (hdig _ (by simp [h]))
    · exact h1 h.symm
    · exact hy (hdig _ (by simp [h]))
    · exact h2 h.symm
  have hl : ClientLine (0x5c :: (a ++ c' :: b) ++ [code]) := by
    refine ⟨hno _ (by unfold HexDigit; decide) (by decide) hcr k2, hno _ (by unfold HexDigit; decide) (by decide) hq k3,
      by simp, ?_, by simp, by simp⟩
    rintro ⟨z, hz⟩
    simp only [List.cons_append, List.cons.injEq] at hz
    exact absurd hz.1 (by decide)
  obtain ⟨y, e, hx⟩ := decodeHex_malformed (changed_malformed hp hs hne) ((0x5c :: (a ++ c' :: b) ++ [code]).length + 1)
    false false (some code)
  have hdec : ∀ rest, decodePacket (0x5c :: (a ++ c' :: b) ++ [code, 0x0d] ++ rest) t.checksum true false =
      .ok (some (.invalid y e), (0x5c :: (a ++ c' :: b) ++ [code, 0x0d]).length) := by
    intro rest
    have h1 : 0x5c :: (a ++ c' :: b) ++ [code, 0x0d] ++ rest = (0x5c :: (a ++ c' :: b) ++ [code]) ++ 0x0d :: rest := by simp
    have h2 : (0x5c :: (a ++ c' :: b) ++ [code, 0x0d]).length = (0x5c :: (a ++ c' :: b) ++ [code]).length + 1 := by
      simp only [List.length_append, List.length_cons, List.length_nil]
    rw [h1, h2, decodePacket_client_line hl, hcs, List.cons_append]
    simp only [decodeLine, Bool.false_eq_true, if_false]
    rw [if_neg (by decide), if_pos trivial]
    unfold decodeConf
    simp only [List.getLast?_concat, List.dropLast_concat]
    rw [if_neg (by simp [k1]), if_neg (by simp [hcode])]
    exact hx
  have hrun := server_line rand (0x5c :: (a ++ c' :: b) ++ [code, 0x0d]) (some (.invalid y e)) t t [] 47 (by simp)
    (by simp only [List.length_append, List.length_cons, List.length_nil] at hlen ⊢; omega) (by simp) hdec hc
    (by simp [actOn, Server.onPacket, pure])
  simpa using hrun

theorem spared_true {α : Type} (bs : List Bool) (x : α) (xs : List α) : spared (true :: bs) (x :: xs) = x :: spared bs xs := rfl

theorem spared_false {α : Type} (bs : List Bool) (x : α) (xs : List α) : spared (false :: bs) (x :: xs) = spared bs xs := rfl

/-- The first of the lines that are written, and the first code. -/
theorem writes_cons (now : Nat → PyDateTime) (hnow : ∀ n, DateTimeOk (now n)) (hook : Event → Proc Client (Eff π) Unit)
    (call : ClientCall) (calls : List ClientCall) (hok : call.Ok) (ht : call.TimeOk) (cl : Conn Client)
    (hcc : cl.st.connected = true) (c : UInt8) (hc1 : confirmationCodes[cl.st.nextConf]? = some c) (hk : cl.st.nextConf < 20) :
    writesOf (runOps hook now ((call :: calls).map .call) cl).2 =
      (0x5c :: b16encode (addChecksum (call.frame (now cl.st.clockReads) PyDate.weekday)) ++ [c, 0x0d]) ::
      writesOf (runOps hook now (calls.map .call)
        { cl with st := { cl.st with nextConf := (cl.st.nextConf + 1) % 20, clockReads := cl.st.clockReads + if call = .clockNow then 1 else 0 } }).2 ∧
    cycleFrom cl.st.nextConf (call :: calls).length = c :: cycleFrom ((cl.st.nextConf + 1) % 20) calls.length := by
  have hrun := run_ok (π := π) now PyDate.weekday (fun d hd => isWeekday_weekday d hd) hnow call hok ht cl.st hcc c hc1
  constructor
  · simp only [List.map_cons, runOps, runOp, onConn, hrun, writesOf_append]
    simp [writesOf]
  · have h20 : ∀ k : Fin 20, ∀ c, confirmationCodes[k.1]? = some c → (ascii "hijklmnopqrstuvwxyzg").getD (k.1 % 20) 0 = c := by
      decide +kernel
    have := h20 ⟨cl.st.nextConf, hk⟩ c hc1
    simp only [cycleFrom, List.length_cons, List.range_succ_eq_map, List.map_cons, List.map_map, Nat.add_zero, this,
      List.cons.injEq, true_and]
    apply List.map_congr_left
    intro i _
    simp only [Function.comp_apply]
    congr 1
    omega

theorem frame_short (now : PyDateTime) (hnow : DateTimeOk now) (call : ClientCall) (hb : IsBroadcast call) (hok : call.Ok)
    (ht : call.TimeOk) : (b16encode (addChecksum (call.frame now PyDate.weekday))).length ≤ 44 := by
  obtain ⟨app, h1, h2, h3⟩ := call_packet now hnow PyDate.weekday (fun d hd => isWeekday_weekday d hd) call hb hok ht
  rw [b16encode_length]
  simp only [addChecksum, List.length_append, List.length_cons, List.length_nil]
  omega

theorem run_through (rand : Nat → Int) (hr : Server.RandOk rand) (now : Nat → PyDateTime) (hnow : ∀ n, DateTimeOk (now n))
    (hook : Event → Proc Client (Eff π) Unit) : ∀ (calls : List ClientCall),
    (∀ k ∈ calls, IsBroadcast k ∧ k.Ok ∧ k.TimeOk) → ∀ (cl : Conn Client), cl.st.connected = true → cl.st.nextConf < 20 →
    ∀ (t : Server), t.connected = true → Server.QueueLines t → t.checksum = true → ∀ (bs : List Bool) (ls : List Bytes),
    Through (writesOf (runOps hook now (calls.map .call) cl).2) bs ls →
    ∃ o t', Run (Server.handle rand) ServerG 47 t ls.flatten o t' ∧ Kept t t' ∧
      sEventsOf o = (spared bs (eventsEach now cl.st.clockReads calls)).flatten ∧
      confirmationsOf o = (spared bs (cycleFrom cl.st.nextConf calls.length)).map confirmationFor := by
  intro calls
  induction calls with
  | nil =>
    intro _ cl _ _ t hc hq _ bs ls h
    simp only [List.map_nil, runOps] at h
    cases h
    exact ⟨[], t, .nil t, Kept.refl hc hq, rfl, rfl⟩
  | cons call calls ih =>
    intro hall cl hcc hk t hc hq hcs bs ls h
    obtain ⟨hb, hok, ht⟩ := hall call (by simp)
    obtain ⟨c, hc1, hc2⟩ := code_at hk
    have ih' := ih (fun k hk => hall k (by simp [hk]))
      { cl with st := { cl.st with nextConf := (cl.st.nextConf + 1) % 20, clockReads := cl.st.clockReads + if call = .clockNow then 1 else 0 } }
      hcc (Nat.mod_lt _ (by decide))
    obtain ⟨hw, hcyc⟩ := writes_cons now hnow hook call calls hok ht cl hcc c hc1 hk
    rw [hw] at h
    rw [hcyc]
    simp only [eventsEach]
    cases h with
    | whole _ _ bs ls h =>
      obtain ⟨o1, t1, r1, k1, e1, f1⟩ := run_call rand hr (now cl.st.clockReads) (hnow _) PyDate.weekday
        (fun d hd => isWeekday_weekday d hd) call hb hok ht c hc2 t hc hq hcs
      obtain ⟨o2, t2, r2, k2, e2, f2⟩ := ih' t1 k1.1 k1.2.1 (by rw [← hcs]; exact k1.2.2.2.1) bs ls h
      refine ⟨o1 ++ o2, t2, ?_, k1.trans k2, ?_, ?_⟩
      · simpa using r1.append r2
      · rw [sEventsOf_append, e1, e2, spared_true]; rfl
      · rw [confirmationsOf_append, f1, f2, spared_true]; rfl
    | dented _ l _ bs ls hd h =>
      have hlen := frame_short (now cl.st.clockReads) (hnow _) call hb hok ht
      have r1 := run_dented rand t hc hcs _ l c hc2 hlen hd
      generalize ho : (if t.basic then [SEff.echo l] else []) = o1 at r1
      have e1 : sEventsOf o1 = [] := by subst ho; cases t.basic <;> rfl
      have f1 : confirmationsOf o1 = [] := by subst ho; cases t.basic <;> rfl
      obtain ⟨o2, t2, r2, k2, e2, f2⟩ := ih' t hc hq hcs bs ls h
      refine ⟨o1 ++ o2, t2, ?_, k2, ?_, ?_⟩
      · simpa using r1.append r2
      · rw [sEventsOf_append, e1, e2, spared_false]; rfl
      · rw [confirmationsOf_append, f1, f2, spared_false]; rfl
    | lost _ _ bs _ h =>
      obtain ⟨o2, t2, r2, k2, e2, f2⟩ := ih' t hc hq hcs bs ls h
      exact ⟨o2, t2, r2, k2, by rw [e2, spared_false], by rw [f2, spared_false]⟩

/-- C176: of the commands that a client writes to a simulated PCI with checksums on, some are damaged in a digit or lost on
the way. All the others are carried out, in order, each is confirmed with its own code, and nothing else is, however what
arrives is cut into pieces of up to 209 characters. -/
theorem C176_others (rand : Nat → Int) (hr : Server.RandOk rand) (now : Nat → PyDateTime) (hnow : ∀ n, DateTimeOk (now n))
    (hook : Event → Proc Client (Eff π) Unit) (calls : List ClientCall)
    (hall : ∀ k ∈ calls, IsBroadcast k ∧ k.Ok ∧ k.TimeOk) (cl : Conn Client) (hcl : cl.st.connected = true)
    (hk : cl.st.nextConf < 20) (t : Server) (hc : t.connected = true) (hq : Server.QueueLines t) (hcs : t.checksum = true)
    (bs : List Bool) (ls : List Bytes) (hth : Through (writesOf (runOps hook now (calls.map .call) cl).2) bs ls)
    (chunks : List Bytes) (hch : chunks.flatten = ls.flatten) (hsm : ∀ d ∈ chunks, d.length ≤ 209) :
    ∃ o t', feed maxBufferSize (Server.handle rand) chunks ⟨[], t⟩ = (⟨[], t'⟩, o, .ok ()) ∧
      optionsOf t' = optionsOf t ∧
      sEventsOf o = (spared bs (eventsEach now cl.st.clockReads calls)).flatten ∧
      confirmationsOf o = (spared bs (cycleFrom cl.st.nextConf calls.length)).map confirmationFor := by
  obtain ⟨o, t', h1, ⟨-, -, k1, k2, k3, k4, k5⟩, h3, h4⟩ := run_through rand hr now hnow hook calls hall cl hcl hk t hc hq hcs bs ls hth
  rw [← hch] at h1
  have hf := Run.fits (serverChunkable rand) (by decide) maxBufferSize (by decide) chunks o h1 hsm
  exact ⟨o, t', Run.feed (serverChunkable rand) (by decide) maxBufferSize chunks o h1 hf,
    by simp only [optionsOf, k1, k2, k3, k4, k5], h3, h4⟩

theorem spared_mem {α : Type} {x : α} : ∀ (bs : List Bool) (xs : List α), x ∈ spared bs xs → x ∈ xs
  | [], _, h => by simp [spared] at h
  | _ :: _, [], h => by simp [spared] at h
  | true :: bs, y :: xs, h => by
    rw [spared_true, List.mem_cons] at h
    rcases h with rfl | h
    · simp
    · simp [spared_mem bs xs h]
  | false :: bs, y :: xs, h => by simp [spared_mem bs xs h]

theorem spared_iff {α : Type} {x : α} : ∀ (bs : List Bool) (xs : List α) (i : Nat), xs.Nodup → xs[i]? = some x →
    (x ∈ spared bs xs ↔ bs[i]? = some true)
  | _, [], _, _, h => by simp at h
  | [], _ :: _, i, _, h => by simp [spared]
  | b :: bs, y :: xs, 0, hn, h => by
    simp only [List.getElem?_cons_zero, Option.some.injEq] at h ⊢
    subst h
    have hy := (List.nodup_cons.1 hn).1
    cases b with
    | true => simp [spared_true]
    | false =>
      rw [spared_false]
      exact ⟨fun h => absurd (spared_mem bs xs h) hy, fun h => by cases h⟩
  | b :: bs, y :: xs, i + 1, hn, h => by
    simp only [List.getElem?_cons_succ] at h ⊢
    obtain ⟨hy, hn'⟩ := List.nodup_cons.1 hn
    rw [← spared_iff bs xs i hn' h]
    have hne : x ≠ y := by
      rintro rfl
      exact hy (List.mem_of_getElem? h)
    cases b with
    | true => rw [spared_true, List.mem_cons]; exact ⟨fun h => h.resolve_left hne, .inr⟩
    | false => rw [spared_false]

/-- Twenty codes in a row are all different. -/
theorem cycle_nodup (k n : Nat) (hn : n ≤ 20) : (cycleFrom k n).Nodup := by
  unfold cycleFrom
  rw [List.Nodup, List.pairwise_map]
  refine List.Pairwise.imp_of_mem ?_ List.pairwise_lt_range
  intro i j hi hj hij
  rw [List.mem_range] at hi hj
  have key : ∀ a b : Fin 20, (ascii "hijklmnopqrstuvwxyzg").getD a.1 0 = (ascii "hijklmnopqrstuvwxyzg").getD b.1 0 → a = b := by
    decide +kernel
  intro h
  have := congrArg Fin.val (key ⟨(k + i) % 20, Nat.mod_lt _ (by decide)⟩ ⟨(k + j) % 20, Nat.mod_lt _ (by decide)⟩ h)
  simp only at this
  omega

/-- C176: so that of up to twenty commands the confirmations tell which were carried out. -/
theorem C176_which (rand : Nat → Int) (hr : Server.RandOk rand) (now : Nat → PyDateTime) (hnow : ∀ n, DateTimeOk (now n))
    (hook : Event → Proc Client (Eff π) Unit) (calls : List ClientCall) (h20 : calls.length ≤ 20)
    (hall : ∀ k ∈ calls, IsBroadcast k ∧ k.Ok ∧ k.TimeOk) (cl : Conn Client) (hcl : cl.st.connected = true)
    (hk : cl.st.nextConf < 20) (t : Server) (hc : t.connected = true) (hq : Server.QueueLines t) (hcs : t.checksum = true)
    (bs : List Bool) (ls : List Bytes) (hth : Through (writesOf (runOps hook now (calls.map .call) cl).2) bs ls)
    (chunks : List Bytes) (hch : chunks.flatten = ls.flatten) (hsm : ∀ d ∈ chunks, d.length ≤ 209) (i : Nat) (c : UInt8)
    (hi : (cycleFrom cl.st.nextConf calls.length)[i]? = some c) :
    [c, 0x2e] ∈ confirmationsOf (feed maxBufferSize (Server.handle rand) chunks ⟨[], t⟩).2.1 ↔ bs[i]? = some true := by
  obtain ⟨o, t', h1, -, -, h4⟩ := C176_others rand hr now hnow hook calls hall cl hcl hk t hc hq hcs bs ls hth chunks hch hsm
  rw [h1, ← spared_iff bs _ i (cycle_nodup _ _ h20) hi]
  simp only [h4, List.mem_map, confirmationFor, List.cons.injEq, and_true, exists_eq_right]

/-- With twenty-one the first and the last have the same code. -/
example : cycleFrom 0 21 = ascii "hijklmnopqrstuvwxyzgh" := by decide +kernel

/-- Four lights are switched on. One digit of the second command is changed, the third is lost: the first and the fourth
are carried out and confirmed. -/
example :
    let calls := [ClientCall.on [1], .on [2], .on [3], .on [4]]
    let w := writesOf (runOps (π := Nat) (fun _ => pure ()) (fun _ => someTime) (calls.map .call) ⟨[], { connected := true }⟩).2
    let ls := [ascii "\\053800790149h\r", ascii "\\053800790348i\r", ascii "\\053800790446k\r"]
    let r := feed maxBufferSize (Server.handle fun _ => 1) [ls.flatten] ⟨[], { connected := true, checksum := true, basic := false }⟩
    Through w [true, false, false, true] ls ∧
    r.2.2 = .ok () ∧ sEventsOf r.2.1 = [.lightingOn 1, .lightingOn 4] ∧ confirmationsOf r.2.1 = [ascii "h.", ascii "k."] := by
  refine ⟨?_, by decide +kernel, by decide +kernel, by decide +kernel⟩
  have hw : writesOf (runOps (π := Nat) (fun _ => pure ()) (fun _ => someTime) ([ClientCall.on [1], .on [2], .on [3], .on [4]].map .call)
      ⟨[], { connected := true }⟩).2 =
      [ascii "\\053800790149h\r", ascii "\\053800790248i\r", ascii "\\053800790347j\r", ascii "\\053800790446k\r"] := by
    decide +kernel
  simp only [hw]
  have hd := Dented.mk (ascii "053800790") (ascii "48") 0x5c 0x32 0x33 0x69 0x0d (by decide) (by decide) (by decide)
  have e1 : (0x5c :: (ascii "053800790" ++ 0x32 :: ascii "48") ++ [0x69, 0x0d] : Bytes) = ascii "\\053800790248i\r" := by decide +kernel
  have e2 : (0x5c :: (ascii "053800790" ++ 0x33 :: ascii "48") ++ [0x69, 0x0d] : Bytes) = ascii "\\053800790348i\r" := by decide +kernel
  rw [e1, e2] at hd
  exact .whole _ _ _ _ (.dented _ _ _ _ _ hd (.lost _ _ _ _ (.whole _ _ _ _ .nil)))

end CBus.Props
