import Verif.Model.Cbz

/-! # Command lines

`ArgumentParser.parse_args` of Python 3.8, which all the tools use: how the words of a
command line are read as options and arguments, for any table of options. Abbreviations
of long options, `--option=value`, short options run together, `--` and arguments
without an option are all there; messages are not. -/

namespace CBus.ArgParse
open CBus.Cbz

/-- How a word of the command line is read: as an argument, as an option (short or
long, with an argument in the same word), as an option that does not exist, or as
the word `--`. -/
inductive Word (δ : Type)
  | arg
  | opt (d : δ) (short : Bool) (explicit : Option Str)
  | unknown
  | dashes
  deriving DecidableEq, Repr

/-- `option_string[1] not in prefix_chars`. -/
def isShort : Str → Bool
  | _ :: c :: _ => c ≠ '-'
  | _ => false

/-- `^-\d+$|^-\d*\.\d+$`. -/
def negativeNumber (u : UniTable) : Str → Bool
  | '-' :: s =>
    let s := if s.getLast? = some '\n' then s.dropLast else s
    let digit c := (u.decimal c).isSome
    match s.dropWhile digit with
    | [] => s ≠ []
    | '.' :: r => r ≠ [] && r.all digit
    | _ => false
  | _ => false

variable {δ : Type}

/-- `ArgumentParser._get_option_tuples`: the options that a word may stand for. -/
def candidates (T : List (Str × δ)) (w : Str) : List (Word δ) :=
  if isShort w then
    T.filterMap fun (o, d) =>
      if o = w.take 2 then some (.opt d true (some (w.drop 2)))
      else if w.isPrefixOf o then some (.opt d (isShort o) none)
      else none
  else
    let p := w.takeWhile (· ≠ '=')
    let e := match w.dropWhile (· ≠ '=') with
      | [] => none
      | _ :: e => some e
    T.filterMap fun (o, d) => if p.isPrefixOf o then some (.opt d (isShort o) e) else none

/-- `ArgumentParser._parse_optional`. `none` if the word is an ambiguous abbreviation. -/
def classify (T : List (Str × δ)) (u : UniTable) (w : Str) : Option (Word δ) :=
  match w with
  | [] => some .arg
  | c :: r =>
    if c ≠ '-' then some .arg
    else
      match T.lookup w with
      | some d => some (.opt d (isShort w) none)
      | none =>
        if r = [] then some .arg
        else
          let o := w.takeWhile (· ≠ '=')
          match w.dropWhile (· ≠ '='), T.lookup o with
          | _ :: e, some d => some (.opt d (isShort o) (some e))
          | _, _ =>
            match candidates T w with
            | _ :: _ :: _ => none
            | [k] => some k
            | [] =>
              if negativeNumber u w then some .arg
              else if ' ' ∈ w then some .arg
              else some .unknown

/-- The words of the command line; behind `--` all are arguments. -/
def classifyAll (T : List (Str × δ)) (u : UniTable) : List Str → Option (List (Str × Word δ))
  | [] => some []
  | w :: ws =>
    if w = "--".toList then some ((w, .dashes) :: ws.map fun w => (w, .arg))
    else
      match classify T u w, classifyAll T u ws with
      | some k, some r => some ((w, k) :: r)
      | _, _ => none

/-- Short options without an argument may be run together: the options before the
last one, the last one, and its argument. -/
def unchain (T : List (Str × δ)) (isFlag : δ → Bool) : δ → Bool → Option Str → Option (List δ × δ × Option Str)
  | d, _, none => some ([], d, none)
  | d, short, some e =>
    if isFlag d then
      if short then chain d e else none
    else some ([], d, some e)
where
  chain (d : δ) : Str → Option (List δ × δ × Option Str)
    | [] => none
    | c :: e =>
      match T.lookup ['-', c] with
      | none => none
      | some d' =>
        if e = [] then some ([d], d', none)
        else if isFlag d' then (chain d' e).map fun (fs, l, x) => (d :: fs, l, x)
        else some ([d], d', some e)

/-! ## Arguments without an option -/

/-- The word `--`. -/
def isDashes (w : Str × Word δ) : Bool :=
  match w.2 with
  | .dashes => true
  | _ => false

/-- The words that an argument without an option takes, and the words behind them: `-*A-*`
if it must be given, `-*A?-*` if it need not. -/
def takeOne (required : Bool) (ws : List (Str × Word δ)) : Option (List Str × List (Str × Word δ)) :=
  let before := ws.takeWhile isDashes
  match ws.dropWhile isDashes with
  | (w, .arg) :: rest =>
    some (before.map (·.1) ++ [w] ++ (rest.takeWhile isDashes).map (·.1), rest.dropWhile isDashes)
  | rest => if required then none else some (before.map (·.1), rest)

/-- `consume_positionals`: as many arguments as there are words for, one after the other:
what they take, the arguments that are left, and the words that are left. For the
parsers of this project, where at most one argument must be given and none need not be
given in front of it, this is what the regular expression finds. -/
def takeAll : List Bool → List (Str × Word δ) → List (List Str) × List Bool × List (Str × Word δ)
  | [], ws => ([], [], ws)
  | r :: rs, ws =>
    match takeOne r ws with
    | none => ([], r :: rs, ws)
    | some (v, ws') => (v :: (takeAll rs ws').1, (takeAll rs ws').2)

/-- `_parse_known_args`: options with their arguments, in order, and the words that
each argument without an option takes. `none` if the command line is refused: a word that
nothing takes is. An argument `--` in the same word as its option becomes an empty list;
this is not followed any further. -/
def readWords (T : List (Str × δ)) (isFlag : δ → Bool) (ws : List (Str × Word δ)) (pos : List Bool) :
    Option (List (δ × Str) × List (List Str)) :=
  match ws with
  | [] => if (takeAll pos ([] : List (Str × Word δ))).2.1 = [] then some ([], (takeAll pos ([] : List (Str × Word δ))).1) else none
  | (_, .opt d short e) :: rest =>
    match unchain T isFlag d short e with
    | none => none
    | some (fs, l, some v) =>
      if v = "--".toList then none
      else (readWords T isFlag rest pos).map fun r => (fs.map (·, []) ++ (l, v) :: r.1, r.2)
    | some (fs, l, none) =>
      if isFlag l then (readWords T isFlag rest pos).map fun r => (fs.map (·, []) ++ (l, []) :: r.1, r.2)
      else
        match rest with
        | (v, .arg) :: rest' => (readWords T isFlag rest' pos).map fun r => (fs.map (·, []) ++ (l, v) :: r.1, r.2)
        | _ => none
  | (_, .unknown) :: _ => none
  | (w, k) :: rest =>
    let t := takeAll pos ((w, k) :: rest)
    if t.2.2.length < rest.length + 1 then (readWords T isFlag t.2.2 t.2.1).map fun r => (r.1, t.1 ++ r.2)
    else none
termination_by ws.length

/-- `parse_args`: options with their arguments, in order, and the values of the arguments
without an option, `none` if one is not given. `_get_values` removes the first `--`. -/
def readArgs (T : List (Str × δ)) (isFlag : δ → Bool) (pos : List Bool) (u : UniTable) (argv : List Str) :
    Option (List (δ × Str) × List (Option Str)) :=
  match classifyAll T u argv with
  | none => none
  | some ws => (readWords T isFlag ws pos).map fun r => (r.1, r.2.map fun v => (v.erase "--".toList).head?)

end CBus.ArgParse
