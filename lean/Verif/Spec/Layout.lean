import Verif.Spec.JsonText

/-! # JSON texts with one item per line

How `dump_labels.py` promises to lay out its output (`-p`, lines 39-44): every item and every member is on a line of its own,
with `n` spaces before it for each array or object that it is in, and the closing brackets are as far in as the lines with
the opening ones. -/

namespace CBus.Spec.Json
open CBus CBus.Json

/-- A new line with `n` spaces for each of `k` levels. -/
def onLine (n k : Nat) (t : Str) : Str := '\n' :: (List.replicate (n * k) ' ' ++ t)

/-- An array or an object with something in it. -/
def Nested : JVal → Prop
  | .arr (_ :: _) => True
  | .obj (_ :: _) => True
  | _ => False

/-- A text of a value whose first line is `k` levels in. -/
inductive Laid (env : JEnv) (n : Nat) : Nat → Str → JVal → Prop
  | plain (k : Nat) (t : Str) (v : JVal) (hv : ¬ Nested v) (h : Part env t (.value v)) (hn : '\n' ∉ t) : Laid env n k t v
  | arr (k : Nat) (ts : List Str) (vs : List JVal) (hne : vs ≠ []) (hl : ts.length = vs.length)
      (h : ∀ i (h1 : i < ts.length) (h2 : i < vs.length), Laid env n (k + 1) ts[i] vs[i]) :
      Laid env n k ('[' :: (List.intercalate [','] (ts.map (onLine n (k + 1))) ++ onLine n k [']'])) (.arr vs)
  | obj (k : Nat) (ts : List (Str × Str)) (ms : List (Str × JVal)) (hne : ms ≠ []) (hl : ts.length = ms.length)
      (hs : ∀ i (h1 : i < ts.length) (h2 : i < ms.length), StringText env ts[i].1 ms[i].1)
      (h : ∀ i (h1 : i < ts.length) (h2 : i < ms.length), Laid env n (k + 1) ts[i].2 ms[i].2) :
      Laid env n k ('{' :: (List.intercalate [','] (ts.map fun t => onLine n (k + 1) ('"' :: (t.1 ++ ("\": ".toList ++ t.2)))) ++
        onLine n k ['}'])) (.obj ms)

end CBus.Spec.Json
