import Verif.Model.Py
import Verif.Model.Text

/-! # References and what they refer to

RFC 3986, sections 3, 5.2 and 5.3. -/

namespace CBus.Spec
open CBus

/-- A reference in its five components; a component can be undefined (`none`) or empty. -/
structure Ref where
  scheme : Option Str := none
  authority : Option Str := none
  path : Str
  query : Option Str := none
  fragment : Option Str := none
  deriving DecidableEq, Repr

/-- How a reference is written, section 5.3. -/
def Ref.text (r : Ref) : Str :=
  (match r.scheme with | some s => s ++ [':'] | none => []) ++
  (match r.authority with | some a => '/' :: '/' :: a | none => []) ++ r.path ++
  (match r.query with | some q => '?' :: q | none => []) ++
  (match r.fragment with | some f => '#' :: f | none => [])

/-- What the components can consist of, so that they can be told apart, sections 3 and 4.2. -/
structure Ref.Ok (r : Ref) : Prop where
  scheme : ∀ s, r.scheme = some s → ∃ c t, s = c :: t ∧ c.isAlpha = true ∧
    ∀ x ∈ t, x.isAlphanum = true ∨ x = '+' ∨ x = '-' ∨ x = '.'
  authority : ∀ a, r.authority = some a → ∀ c ∈ a, c ≠ '/' ∧ c ≠ '?' ∧ c ≠ '#'
  path : ∀ c ∈ r.path, c ≠ '?' ∧ c ≠ '#'
  after : r.authority ≠ none → r.path = [] ∨ r.path.head? = some '/'
  alone : r.authority = none → r.path.take 2 ≠ ['/', '/']
  first : r.scheme = none → r.authority = none → ':' ∉ r.path.takeWhile (· ≠ '/')
  query : ∀ q, r.query = some q → '#' ∉ q

/-- The output without its last segment and the slash before it. -/
def withoutLast (out : Str) : Str := ((out.reverse.dropWhile (· ≠ '/')).drop 1).reverse

/-- `remove_dot_segments`, section 5.2.4, rules A to E, with the input and the output buffer. The
first argument is a bound for the number of rounds. -/
def dotsGo : Nat → Str → Str → Str
  | 0, _, out => out
  | n + 1, input, out =>
    match input with
    | [] => out
    -- A
    | '.' :: '.' :: '/' :: r => dotsGo n r out
    | '.' :: '/' :: r => dotsGo n r out
    -- B
    | '/' :: '.' :: '/' :: r => dotsGo n ('/' :: r) out
    | ['/', '.'] => dotsGo n ['/'] out
    -- C
    | '/' :: '.' :: '.' :: '/' :: r => dotsGo n ('/' :: r) (withoutLast out)
    | ['/', '.', '.'] => dotsGo n ['/'] (withoutLast out)
    -- D
    | ['.'] => dotsGo n [] out
    | ['.', '.'] => dotsGo n [] out
    -- E
    | c :: r => dotsGo n (r.dropWhile (· ≠ '/')) (out ++ c :: r.takeWhile (· ≠ '/'))

/-- Every round makes the input shorter. -/
def removeDots (path : Str) : Str := dotsGo path.length path []

/-- The path of the base up to its last slash, and the path of the reference, section 5.2.3 (for a base with an
authority). -/
def merge (base path : Str) : Str :=
  if base = [] then '/' :: path else (base.reverse.dropWhile (· ≠ '/')).reverse ++ path

/-- What a reference refers to, section 5.2.2. -/
def resolve (base r : Ref) : Ref :=
  if r.scheme ≠ none then { r with path := removeDots r.path }
  else if r.authority ≠ none then { r with scheme := base.scheme, path := removeDots r.path }
  else if r.path = [] then
    { r with scheme := base.scheme, authority := base.authority, path := base.path,
             query := if r.query ≠ none then r.query else base.query }
  else if r.path.head? = some '/' then
    { r with scheme := base.scheme, authority := base.authority, path := removeDots r.path }
  else { r with scheme := base.scheme, authority := base.authority, path := removeDots (merge base.path r.path) }

/-- The examples of section 5.4, with the base `http://a/b/c/d;p?q`. -/
def refBase : Ref := ⟨some "http".toList, some "a".toList, "/b/c/d;p".toList, some "q".toList, none⟩

example : (resolve refBase ⟨none, none, "g".toList, none, none⟩).text = "http://a/b/c/g".toList := by decide +kernel
example : (resolve refBase ⟨none, none, "./g".toList, none, none⟩).text = "http://a/b/c/g".toList := by decide +kernel
example : (resolve refBase ⟨none, none, "g/".toList, none, none⟩).text = "http://a/b/c/g/".toList := by decide +kernel
example : (resolve refBase ⟨none, none, "/g".toList, none, none⟩).text = "http://a/g".toList := by decide +kernel
example : (resolve refBase ⟨none, some "g".toList, [], none, none⟩).text = "http://g".toList := by decide +kernel
example : (resolve refBase ⟨none, none, [], some "y".toList, none⟩).text = "http://a/b/c/d;p?y".toList := by decide +kernel
example : (resolve refBase ⟨none, none, "g".toList, some "y".toList, some "s".toList⟩).text = "http://a/b/c/g?y#s".toList := by
  decide +kernel
example : (resolve refBase ⟨none, none, [], none, some "s".toList⟩).text = "http://a/b/c/d;p?q#s".toList := by decide +kernel
example : (resolve refBase ⟨none, none, [], none, none⟩).text = "http://a/b/c/d;p?q".toList := by decide +kernel
example : (resolve refBase ⟨none, none, ".".toList, none, none⟩).text = "http://a/b/c/".toList := by decide +kernel
example : (resolve refBase ⟨none, none, "..".toList, none, none⟩).text = "http://a/b/".toList := by decide +kernel
example : (resolve refBase ⟨none, none, "../g".toList, none, none⟩).text = "http://a/b/g".toList := by decide +kernel
example : (resolve refBase ⟨none, none, "../..".toList, none, none⟩).text = "http://a/".toList := by decide +kernel
example : (resolve refBase ⟨none, none, "../../../g".toList, none, none⟩).text = "http://a/g".toList := by decide +kernel
example : (resolve refBase ⟨none, none, "/./g".toList, none, none⟩).text = "http://a/g".toList := by decide +kernel
example : (resolve refBase ⟨none, none, "/../g".toList, none, none⟩).text = "http://a/g".toList := by decide +kernel
example : (resolve refBase ⟨none, none, "..g".toList, none, none⟩).text = "http://a/b/c/..g".toList := by decide +kernel
example : (resolve refBase ⟨none, none, "./g/.".toList, none, none⟩).text = "http://a/b/c/g/".toList := by decide +kernel
example : (resolve refBase ⟨none, none, "g/../h".toList, none, none⟩).text = "http://a/b/c/h".toList := by decide +kernel
example : (resolve refBase ⟨some "http".toList, none, "g".toList, none, none⟩).text = "http:g".toList := by decide +kernel

end CBus.Spec
