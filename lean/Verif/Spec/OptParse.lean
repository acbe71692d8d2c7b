import Verif.Model.OptParse

/-! # Command lines of the redirector as they are written, and what its spy shows -/

namespace CBus.Spec
open CBus CBus.OptParse

variable {δ : Type}

/-- A word that stands for a long option: its name, or a beginning of its name and of no
other. -/
def LongName (t : Table δ) (n : Str) (d : δ) : Prop :=
  (n, d) ∈ t.long ∨
  (∀ d', (n, d') ∉ t.long) ∧ ∃ o, (o, d) ∈ t.long ∧ n <+: o ∧ ∀ o' d', (o', d') ∈ t.long → n <+: o' → o' = o

/-- Letters behind a dash: options without an argument, and at the end perhaps one with an
argument, which is what is left of the word, or the next word. -/
inductive Letters (t : Table δ) : Str → List (δ × Str) → Option δ → Prop
  | nil : Letters t [] [] none
  | flag (c : Char) (d : δ) (s : Str) (is : List (δ × Str)) (p : Option δ) (h : (c, d) ∈ t.short)
      (hf : t.takes d = false) (hs : Letters t s is p) : Letters t (c :: s) ((d, []) :: is) p
  | joined (c : Char) (d : δ) (v : Str) (h : (c, d) ∈ t.short) (hf : t.takes d = true) (hv : v ≠ []) :
      Letters t (c :: v) [(d, v)] none
  | opens (c : Char) (d : δ) (h : (c, d) ∈ t.short) (hf : t.takes d = true) : Letters t [c] [] (some d)

/-- A command line: options and arguments in any order; behind `--` all words are arguments. -/
inductive OptLine (t : Table δ) : List Str → List (δ × Str) → List Str → Prop
  | nil : OptLine t [] [] []
  | stop (ws : List Str) : OptLine t ("--".toList :: ws) [] ws
  | word (w : Str) (ws : List Str) (is : List (δ × Str)) (as : List Str) (hw : w.head? ≠ some '-' ∨ w = ['-'])
      (h : OptLine t ws is as) : OptLine t (w :: ws) is (w :: as)
  | flag (n : Str) (d : δ) (ws : List Str) (is : List (δ × Str)) (as : List Str) (hn : LongName t n d)
      (hd : "--".toList <+: n) (hne : n ≠ "--".toList) (he : '=' ∉ n) (hf : t.takes d = false) (h : OptLine t ws is as) :
      OptLine t (n :: ws) ((d, []) :: is) as
  | equals (n : Str) (d : δ) (v : Str) (ws : List Str) (is : List (δ × Str)) (as : List Str) (hn : LongName t n d)
      (hd : "--".toList <+: n) (he : '=' ∉ n) (hf : t.takes d = true) (h : OptLine t ws is as) :
      OptLine t ((n ++ '=' :: v) :: ws) ((d, v) :: is) as
  | next (n : Str) (d : δ) (v : Str) (ws : List Str) (is : List (δ × Str)) (as : List Str) (hn : LongName t n d)
      (hd : "--".toList <+: n) (hne : n ≠ "--".toList) (he : '=' ∉ n) (hf : t.takes d = true) (h : OptLine t ws is as) :
      OptLine t (n :: v :: ws) ((d, v) :: is) as
  | letters (s : Str) (ws : List Str) (js is : List (δ × Str)) (as : List Str) (hs : Letters t s js none)
      (hne : s ≠ []) (hd : s.head? ≠ some '-') (h : OptLine t ws is as) : OptLine t (('-' :: s) :: ws) (js ++ is) as
  | lettersNext (s : Str) (d : δ) (v : Str) (ws : List Str) (js is : List (δ × Str)) (as : List Str)
      (hs : Letters t s js (some d)) (hd : s.head? ≠ some '-') (h : OptLine t ws is as) :
      OptLine t (('-' :: s) :: v :: ws) (js ++ (d, v) :: is) as

/-- A digit of a hexadecimal number in lower case and its value. -/
def IsDigit (x : UInt8) (n : Nat) : Prop := "0123456789abcdef".toList[n]? = some (Char.ofNat x.toNat)

/-- The bytes of a text in which everything is as in a Python string with `'`. -/
inductive Escaped : Bytes → Bytes → Prop
  | nil : Escaped [] []
  | plain (b : UInt8) (s d : Bytes) (h1 : 32 ≤ b) (h2 : b < 127) (h3 : b ≠ 39) (h4 : b ≠ 92) (h : Escaped s d) :
      Escaped (b :: s) (b :: d)
  | quote (s d : Bytes) (h : Escaped s d) : Escaped (92 :: 39 :: s) (39 :: d)
  | backslash (s d : Bytes) (h : Escaped s d) : Escaped (92 :: 92 :: s) (92 :: d)
  | tab (s d : Bytes) (h : Escaped s d) : Escaped (92 :: 116 :: s) (9 :: d)
  | lf (s d : Bytes) (h : Escaped s d) : Escaped (92 :: 110 :: s) (10 :: d)
  | cr (s d : Bytes) (h : Escaped s d) : Escaped (92 :: 114 :: s) (13 :: d)
  | hex (b x y : UInt8) (s d : Bytes) (hb : b < 32 ∧ b ≠ 9 ∧ b ≠ 10 ∧ b ≠ 13 ∨ 127 ≤ b)
      (hx : IsDigit x (b.toNat / 16)) (hy : IsDigit y (b.toNat % 16)) (h : Escaped s d) : Escaped (92 :: 120 :: x :: y :: s) (b :: d)

end CBus.Spec

namespace CBus.Spec
open CBus CBus.Redirect

/-- A right order of what the main program does, while `n` connections have come and the last
of them is served or not: one connection at a time, which gets its own data only and is
left before the next comes. -/
inductive Sessions : Nat → Bool → List Act → Prop
  | nil (n : Nat) (s : Bool) : Sessions n s []
  | exit (n : Nat) (s : Bool) (code : Nat) : Sessions n s [.exit code]
  | retry (n : Nat) (l : List Act) (h : Sessions n false l) : Sessions n false (.error :: .waiting :: l)
  | connected (n : Nat) (l : List Act) (h : Sessions (n + 1) true l) : Sessions n false (.connected (n + 1) :: l)
  | toNetwork (n : Nat) (d : Bytes) (l : List Act) (h : Sessions n true l) : Sessions n true (.toNetwork n d :: l)
  | toSerial (n : Nat) (d : Bytes) (l : List Act) (h : Sessions n true l) : Sessions n true (.toSerial d :: l)
  | shows (n : Nat) (d : Bytes) (l : List Act) (h : Sessions n true l) : Sessions n true (.show d :: l)
  | error (n : Nat) (l : List Act) (h : Sessions n true l) : Sessions n true (.error :: l)
  | left (n : Nat) (l : List Act) (h : Sessions n false l) : Sessions n true (.disconnected n :: .waiting :: l)

/-- What is passed on. -/
def passed : Act → List Act
  | .toNetwork n d => [.toNetwork n d]
  | .toSerial d => [.toSerial d]
  | _ => []

/-- All that is passed on is shown: what is sent to the network as it was on the serial port,
just before; what is written to the serial port just after. -/
inductive Witnessed (r : Redirector) : List Act → Prop
  | nil : Witnessed r []
  | other (a : Act) (l : List Act) (ha : passed a = []) (h : Witnessed r l) : Witnessed r (a :: l)
  | sent (t d : Bytes) (n : Nat) (l : List Act) (ht : Escaped t d) (h : Witnessed r l) :
      Witnessed r (.show t :: .toNetwork n (toNetwork r d) :: l)
  | written (t d : Bytes) (l : List Act) (ht : Escaped t d) (h : Witnessed r l) :
      Witnessed r (.toSerial d :: .show t :: l)

end CBus.Spec
