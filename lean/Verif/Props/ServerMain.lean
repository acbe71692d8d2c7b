import Verif.Model.ServerMain
import Verif.Props.ServerSession

/-! # C116: the simulated PCI serves each client as if there were no others -/

namespace CBus.Props
open CBus CBus.Spec CBus.Server

/-- What client `n` sends on its connection: the pieces until it leaves. -/
def piecesOf (n : Nat) : List HostEvent → List Bytes
  | [] => []
  | .sends m d :: es => if m = n then d :: piecesOf n es else piecesOf n es
  | .leaves m :: es => if m = n then [] else piecesOf n es
  | .connects _ :: es => piecesOf n es

/-- What happens once client `n` has connected; `none` if it does not. -/
def sinceConnect (n : Nat) : List HostEvent → Option (List HostEvent)
  | [] => none
  | .connects m :: es => if m = n then some es else sinceConnect n es
  | _ :: es => sinceConnect n es

/-- What is done for client `n`. -/
def doneFor (n : Nat) (os : List (Nat × SEff)) : List SEff := (os.filter (·.1 = n)).map (·.2)

theorem doneFor_append (n : Nat) (a b : List (Nat × SEff)) : doneFor n (a ++ b) = doneFor n a ++ doneFor n b := by
  simp [doneFor]

theorem doneFor_one (n m : Nat) (os : List SEff) :
    doneFor n (os.map fun o => (m, o)) = if m = n then os else [] := by
  unfold doneFor
  by_cases h : m = n
  · subst h
    rw [List.filter_eq_self.2 (by simp), if_pos rfl]
    simp [Function.comp_def]
  · rw [if_neg h, List.filter_eq_nil_iff.2 (by simp [h])]
    rfl

/-- The number of the connection that an event concerns. -/
def concerns : HostEvent → Nat
  | .connects n | .sends n _ | .leaves n => n

theorem onEvent_number (rand : Nat → Nat → Int) (slots : Nat → Slot) (e : HostEvent) :
    (onEvent rand slots e).1 = concerns e := by
  cases e <;> simp only [onEvent, concerns] <;> split <;> rfl

/-- An event of another client changes nothing for this one. -/
theorem serve_other (rand : Nat → Nat → Int) (n : Nat) (slots : Nat → Slot) (e : HostEvent) (es : List HostEvent)
    (h : concerns e ≠ n) :
    ∃ slots', slots' n = slots n ∧
      doneFor n (serveForever rand slots (e :: es)) = doneFor n (serveForever rand slots' es) := by
  refine ⟨fun m => if m = (onEvent rand slots e).1 then (onEvent rand slots e).2.1 else slots m, ?_, ?_⟩
  rotate_left
  · simp only [serveForever, doneFor_append, doneFor_one, onEvent_number, if_neg h, List.nil_append]
  · simp [onEvent_number, Ne.symm h]

theorem serve_own (rand : Nat → Nat → Int) (slots : Nat → Slot) (e : HostEvent) (es : List HostEvent) :
    ∃ slots', slots' (concerns e) = (onEvent rand slots e).2.1 ∧
      doneFor (concerns e) (serveForever rand slots (e :: es)) =
        (onEvent rand slots e).2.2 ++ doneFor (concerns e) (serveForever rand slots' es) := by
  refine ⟨fun m => if m = (onEvent rand slots e).1 then (onEvent rand slots e).2.1 else slots m, ?_, ?_⟩
  rotate_left
  · simp only [serveForever, doneFor_append, doneFor_one, onEvent_number, if_true]
  · simp [onEvent_number]

theorem serve_closed (rand : Nat → Nat → Int) (n : Nat) (es : List HostEvent) : ∀ slots : Nat → Slot,
    slots n = .closed → doneFor n (serveForever rand slots es) = [] := by
  induction es with
  | nil => intro slots _; rfl
  | cons e es ih =>
    intro slots h
    by_cases hn : concerns e = n
    · subst hn
      obtain ⟨slots', h1, h2⟩ := serve_own rand slots e es
      have : (onEvent rand slots e).2 = (.closed, []) := by
        cases e <;> simp only [concerns] at h <;> simp only [onEvent, h]
      rw [h2, this, List.nil_append]
      exact ih slots' (by rw [h1, this])
    · obtain ⟨slots', h1, h2⟩ := serve_other rand n slots e es hn
      rw [h2]
      exact ih slots' (h1.trans h)

theorem serve_open (rand : Nat → Nat → Int) (n : Nat) (es : List HostEvent) : ∀ (slots : Nat → Slot) (c : Conn Server),
    slots n = .isOpen c →
    doneFor n (serveForever rand slots es) = (feed maxBufferSize (Server.handle (rand n)) (piecesOf n es) c).2.1 := by
  induction es with
  | nil => intro slots c _; rfl
  | cons e es ih =>
    intro slots c h
    by_cases hn : concerns e = n
    · subst hn
      obtain ⟨slots', h1, h2⟩ := serve_own rand slots e es
      rw [h2]
      cases e with
      | connects m =>
        simp only [concerns] at h
        have : (onEvent rand slots (.connects m)).2 = (.isOpen c, []) := by simp only [onEvent, h]
        rw [this] at h1 ⊢
        simpa [concerns, piecesOf] using ih slots' c h1
      | leaves m =>
        simp only [concerns] at h
        have : (onEvent rand slots (.leaves m)).2 = (.closed, []) := by simp only [onEvent, h]
        rw [this] at h1 ⊢
        simp only [List.nil_append, piecesOf, concerns, if_true]
        exact serve_closed rand m es slots' h1
      | sends m d =>
        simp only [concerns] at h
        have : (onEvent rand slots (.sends m d)).2 = receive (rand m) d c := by simp only [onEvent, h]
        rw [this] at h1 ⊢
        simp only [piecesOf, concerns, if_true, feed, Proc.andThen]
        unfold receive Server.dataReceived at h1 ⊢
        generalize hr : CBus.dataReceived maxBufferSize (Server.handle (rand m)) d c = r at h1 ⊢
        obtain ⟨c1, o1, r⟩ := r
        cases r with
        | ok u =>
          simp only at h1 ⊢
          exact congrArg (o1 ++ ·) (ih slots' c1 h1)
        | error e =>
          simp only at h1 ⊢
          rw [serve_closed rand m es slots' h1, List.append_nil]
    · obtain ⟨slots', h1, h2⟩ := serve_other rand n slots e es hn
      rw [h2, ih slots' c (h1.trans h)]
      have : piecesOf n (e :: es) = piecesOf n es := by
        cases e <;> simp only [concerns] at hn <;> simp [piecesOf, hn]
      rw [this]

theorem accept_eq : accept = (.isOpen ⟨[], { connected := true }⟩, [.write (ascii "++\r\n")]) := by
  rfl

theorem serve_fresh (rand : Nat → Nat → Int) (n : Nat) (es : List HostEvent) : ∀ (slots : Nat → Slot),
    slots n = .fresh →
    doneFor n (serveForever rand slots es) =
      match sinceConnect n es with
      | none => []
      | some later => .write (ascii "++\r\n") ::
          (feed maxBufferSize (Server.handle (rand n)) (piecesOf n later) ⟨[], { connected := true }⟩).2.1 := by
  induction es with
  | nil => intro slots _; rfl
  | cons e es ih =>
    intro slots h
    by_cases hn : concerns e = n
    · subst hn
      obtain ⟨slots', h1, h2⟩ := serve_own rand slots e es
      rw [h2]
      cases e with
      | connects m =>
        simp only [concerns] at h
        have : (onEvent rand slots (.connects m)).2 = accept := by simp only [onEvent, h]
        rw [this, accept_eq] at h1 ⊢
        simp only [concerns, sinceConnect, if_true]
        rw [serve_open rand m es slots' _ h1]
        rfl
      | leaves m =>
        simp only [concerns] at h
        have : (onEvent rand slots (.leaves m)).2 = (.fresh, []) := by simp only [onEvent, h]
        rw [this] at h1 ⊢
        simpa [concerns, sinceConnect] using ih slots' h1
      | sends m d =>
        simp only [concerns] at h
        have : (onEvent rand slots (.sends m d)).2 = (.fresh, []) := by simp only [onEvent, h]
        rw [this] at h1 ⊢
        simpa [concerns, sinceConnect] using ih slots' h1
    · obtain ⟨slots', h1, h2⟩ := serve_other rand n slots e es hn
      rw [h2, ih slots' (h1.trans h)]
      have : sinceConnect n (e :: es) = sinceConnect n es := by
        cases e <;> simp only [concerns] at hn <;> simp [sinceConnect, hn]
      rw [this]

/-- C116: each client of the simulated PCI, whatever the others do, is told that the power
has come on and then gets exactly what C103 says about a PCI that is in the state of
power-up and receives what this client sends; a client that does not connect gets nothing. -/
theorem C116_clients (rand : Nat → Nat → Int) (hr : ∀ n, Server.RandOk (rand n)) (es : List HostEvent) (n : Nat) :
    match sinceConnect n es with
    | none => doneFor n (serveForever rand (fun _ => .fresh) es) = []
    | some later => ∃ o b s r, Hosts (rand n) [] { connected := true } (piecesOf n later) o b s r ∧
        doneFor n (serveForever rand (fun _ => .fresh) es) = .write (ascii "++\r\n") :: o := by
  have h := serve_fresh rand n es (fun _ => .fresh) rfl
  generalize hs : sinceConnect n es = x at h
  cases x with
  | none => simpa [hs] using h
  | some later =>
    simp only at h ⊢
    generalize hf : feed maxBufferSize (Server.handle (rand n)) (piecesOf n later) ⟨[], { connected := true }⟩ = f at h
    obtain ⟨c, o, r⟩ := f
    exact ⟨o, c.buf, c.st, r, (C103_server (rand n) (hr n) [] _ rfl _ c o r).1 hf, h⟩

/-- C116: two histories in which a client does the same are the same for it. -/
theorem C116_alone (rand : Nat → Nat → Int) (es es' : List HostEvent) (n : Nat)
    (h : es.filter (concerns · = n) = es'.filter (concerns · = n)) :
    doneFor n (serveForever rand (fun _ => .fresh) es) = doneFor n (serveForever rand (fun _ => .fresh) es') := by
  have key : ∀ es : List HostEvent, ∀ slots slots' : Nat → Slot, slots n = slots' n →
      doneFor n (serveForever rand slots es) = doneFor n (serveForever rand slots' (es.filter (concerns · = n))) := by
    intro es
    induction es with
    | nil => intro _ _ _; rfl
    | cons e es ih =>
      intro slots slots' hsl
      by_cases hn : concerns e = n
      · rw [List.filter_cons, if_pos (by simpa using hn)]
        subst hn
        have : (onEvent rand slots e).2 = (onEvent rand slots' e).2 := by
          cases e <;> simp only [concerns] at hsl <;> simp only [onEvent, hsl] <;> split <;> rfl
        obtain ⟨t, h1, h2⟩ := serve_own rand slots e es
        obtain ⟨t', h1', h2'⟩ := serve_own rand slots' e (es.filter (concerns · = concerns e))
        rw [h2, h2', this, ih t t' (by rw [h1, h1', this])]
      · rw [List.filter_cons, if_neg (by simpa using hn)]
        obtain ⟨t, h1, h2⟩ := serve_other rand n slots e es hn
        rw [h2]
        exact ih t slots' (h1.trans hsl)
  rw [key es _ (fun _ => .fresh) rfl, key es' _ (fun _ => .fresh) rfl, h]

/-- Two clients: one asks for smart mode, and the other still gets an echo; the connection of
the other ends with a line that cannot be read, and the one is served on. -/
example : serveForever (fun _ n => n % 100 + 1) (fun _ => .fresh)
    [.connects 1, .connects 2, .sends 2 (ascii "|\r"), .sends 1 (ascii "A3300059g\r"), .sends 1 (ascii "\\05"),
      .sends 1 (ascii "0\r"), .sends 1 (ascii "A3300059h\r"), .sends 2 (ascii "A3300059h\r"), .leaves 2,
      .sends 2 (ascii "~\r"), .connects 3] =
    [(1, .write (ascii "++\r\n")), (2, .write (ascii "++\r\n")), (2, .echo (ascii "|\r")),
      (1, .echo (ascii "A3300059g\r")), (1, .write (ascii "g.")), (2, .write (ascii "h.")), (3, .write (ascii "++\r\n"))] := by
  decide +kernel

end CBus.Props
