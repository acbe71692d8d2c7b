import Verif.Model.ArgParse

/-! # Command lines, as they are written

Independent of how they are read: an option may be written by any of its names or a
beginning of a long one, with its argument in one of three places. -/

namespace CBus.Props
open CBus CBus.Cbz CBus.ArgParse

variable {δ : Type}

/-- A word that stands for an option: one of its names, or a beginning of a long name
that no other name has. -/
def Names (T : List (Str × δ)) (p : Str) (d : δ) : Prop :=
  (p, d) ∈ T ∨
  "--".toList <+: p ∧ ∃ o, (o, d) ∈ T ∧ p <+: o ∧ ∀ o' d', (o', d') ∈ T → p <+: o' → o' = o

/-- How one option may be written: the option alone if it takes no argument; with its
argument in the next word, which must not begin with a dash; with any argument
behind `=`; a short option with its argument right behind. -/
inductive Spells (T : List (Str × δ)) (isFlag : δ → Bool) : List Str → δ × Str → Prop
  | flag (p : Str) (d : δ) (h : Names T p d) (hp : p ≠ "--".toList) (hf : isFlag d = true) : Spells T isFlag [p] (d, [])
  | separate (p : Str) (d : δ) (v : Str) (h : Names T p d) (hp : p ≠ "--".toList) (hf : isFlag d = false)
      (hv : v.head? ≠ some '-') : Spells T isFlag [p, v] (d, v)
  | equals (p : Str) (d : δ) (v : Str) (h : Names T p d) (hf : isFlag d = false) (hv : v ≠ "--".toList) :
      Spells T isFlag [p ++ '=' :: v] (d, v)
  | joined (c : Char) (d : δ) (v : Str) (h : (['-', c], d) ∈ T) (hf : isFlag d = false) (hv : v ≠ [])
      (he : v.head? ≠ some '=') (hd : v ≠ "--".toList) : Spells T isFlag ['-' :: c :: v] (d, v)

/-! ## All command lines -/

/-- A negative number: a dash and decimal digits, or a dash and decimal digits with a
point among them or in front of them; at the end there may be a line feed. -/
def Negative (u : UniTable) (w : Str) : Prop :=
  ∃ a b e : Str, (∀ c ∈ a ++ b, (u.decimal c).isSome = true) ∧ (e = [] ∨ e = ['\n']) ∧
    (w = '-' :: (a ++ e) ∧ a ≠ [] ∨ w = '-' :: (a ++ '.' :: (b ++ e)) ∧ b ≠ [])

/-- A word that no option begins: no short option if it has one dash in front, no long one
if it has two. -/
def NoOption (T : List (Str × δ)) (w : Str) : Prop :=
  (∀ c d, c ≠ '-' → ['-', c] <+: w → (['-', c], d) ∉ T) ∧
  ("--".toList <+: w → ∀ o d, (o, d) ∈ T → ¬ w.takeWhile (· ≠ '=') <+: o)

/-- A word that is an argument: it does not begin with a dash, or is only a dash, or it
stands for no option and is a negative number or has a space. -/
def IsArg (T : List (Str × δ)) (u : UniTable) (w : Str) : Prop :=
  w ≠ "--".toList ∧
  (w.head? ≠ some '-' ∨ w = ['-'] ∨ NoOption T w ∧ (Negative u w ∨ ' ' ∈ w))

/-- Letters behind a dash: options without an argument, and at the end one that takes one,
with its argument right behind it or still to come. -/
inductive Run (T : List (Str × δ)) (isFlag : δ → Bool) : Str → List (δ × Str) → Option δ → Prop
  | flag (c : Char) (d : δ) (h : (['-', c], d) ∈ T) (hf : isFlag d = true) : Run T isFlag [c] [(d, [])] none
  | opens (c : Char) (d : δ) (h : (['-', c], d) ∈ T) (hf : isFlag d = false) : Run T isFlag [c] [] (some d)
  | joined (c : Char) (d : δ) (v : Str) (h : (['-', c], d) ∈ T) (hf : isFlag d = false) (hv : v ≠ [])
      (hd : v ≠ "--".toList) : Run T isFlag (c :: v) [(d, v)] none
  | more (c : Char) (d : δ) (s : Str) (is : List (δ × Str)) (p : Option δ) (h : (['-', c], d) ∈ T)
      (hf : isFlag d = true) (hs : Run T isFlag s is p) : Run T isFlag (c :: s) ((d, []) :: is) p

/-- What is behind the dash of a word of short options: behind the first of them a `=`
does not count. -/
inductive Shorts (T : List (Str × δ)) (isFlag : δ → Bool) : Str → List (δ × Str) → Option δ → Prop
  | plain (s : Str) (is : List (δ × Str)) (p : Option δ) (h : Run T isFlag s is p) (he : s[1]? ≠ some '=') :
      Shorts T isFlag s is p
  | equals (c : Char) (d : δ) (v : Str) (h : (['-', c], d) ∈ T) (hf : isFlag d = false) (hd : v ≠ "--".toList) :
      Shorts T isFlag (c :: '=' :: v) [(d, v)] none
  | flag (c : Char) (d : δ) (s : Str) (is : List (δ × Str)) (p : Option δ) (h : (['-', c], d) ∈ T)
      (hf : isFlag d = true) (hs : Run T isFlag s is p) : Shorts T isFlag (c :: '=' :: s) ((d, []) :: is) p

/-- Options that are written together, in one word or in a word and its argument. -/
inductive Group (T : List (Str × δ)) (isFlag : δ → Bool) (u : UniTable) : List Str → List (δ × Str) → Prop
  | longFlag (p : Str) (d : δ) (h : Names T p d) (hl : "--".toList <+: p) (hp : p ≠ "--".toList)
      (hf : isFlag d = true) : Group T isFlag u [p] [(d, [])]
  | longValue (p : Str) (d : δ) (v : Str) (h : Names T p d) (hl : "--".toList <+: p) (hp : p ≠ "--".toList)
      (hf : isFlag d = false) (hv : IsArg T u v) : Group T isFlag u [p, v] [(d, v)]
  | longEquals (p : Str) (d : δ) (v : Str) (h : Names T p d) (hl : "--".toList <+: p) (hf : isFlag d = false)
      (hd : v ≠ "--".toList) : Group T isFlag u [p ++ '=' :: v] [(d, v)]
  | short (s : Str) (is : List (δ × Str)) (h : Shorts T isFlag s is none) : Group T isFlag u ['-' :: s] is
  | shortValue (s : Str) (is : List (δ × Str)) (d : δ) (v : Str) (h : Shorts T isFlag s is (some d))
      (hv : IsArg T u v) : Group T isFlag u ['-' :: s, v] (is ++ [(d, v)])

/-- A command line: its options in order, and its argument without an option if it has
one. In front of the last word or at the end of the line there may be `--` for that
argument. -/
inductive Line (T : List (Str × δ)) (isFlag : δ → Bool) (u : UniTable) : List Str → List (δ × Str) → Option Str → Prop
  | nil : Line T isFlag u [] [] none
  | group (ws more : List Str) (is is' : List (δ × Str)) (p : Option Str) (h : Group T isFlag u ws is)
      (hm : Line T isFlag u more is' p) : Line T isFlag u (ws ++ more) (is ++ is') p
  | word (w : Str) (more : List Str) (is : List (δ × Str)) (h : IsArg T u w) (hm : Line T isFlag u more is none) :
      Line T isFlag u (w :: more) is (some w)
  | before (w : Str) : Line T isFlag u ["--".toList, w] [] (some w)
  | after (w : Str) (h : IsArg T u w) : Line T isFlag u [w, "--".toList] [] (some w)

end CBus.Props
