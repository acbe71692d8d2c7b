import Verif.Model.Cbz

/-! # Dumping a project, and drawing it

`/repo/cbus/toolkit/dump_labels.py` and `/repo/cbus/toolkit/graph.py`. Not
modelled: `argparse` (the model starts from the parsed options) and `pydot` (the model ends with the nodes and the edges that
it is given). The text that the `json` module writes is in `DumpText`. -/

namespace CBus

namespace UniTable
variable (u : UniTable)

/-- The value of a hexadecimal digit for `int(s, 16)`. -/
def hexDigitOf (c : Char) : Option Nat :=
  match u.decimal c with
  | some d => some d
  | none =>
    if 97 ≤ c.toNat ∧ c.toNat ≤ 102 then some (c.toNat - 87)
    else if 65 ≤ c.toNat ∧ c.toNat ≤ 70 then some (c.toNat - 55)
    else none

/-- The digits of `int(s, 16)`: single underscores between digits are allowed. -/
def hexDigits : Bool → Nat → Str → Option Nat
  | prev, acc, [] => if prev then some acc else none
  | prev, acc, c :: r =>
    if c = '_' then if prev then hexDigits false acc r else none
    else match u.hexDigitOf c with
      | some d => hexDigits true (16 * acc + d) r
      | none => none

/-- `int(s, 16)` after the sign: a prefix `0x`, after which an underscore is
allowed, and the digits. -/
def hexBody (s : Str) : Option Nat :=
  match s with
  | z :: x :: '_' :: r =>
    if u.decimal z = some 0 ∧ (x = 'x' ∨ x = 'X') then u.hexDigits false 0 r else u.hexDigits false 0 s
  | z :: x :: r =>
    if u.decimal z = some 0 ∧ (x = 'x' ∨ x = 'X') then u.hexDigits false 0 r else u.hexDigits false 0 s
  | s => u.hexDigits false 0 s

/-- The sign and the rest of `int(s, 16)`. -/
def hexSigned : Str → Option Int
  | [] => none
  | c :: t =>
    if c = '-' then (u.hexBody t).map fun n : Nat => -Int.ofNat n
    else if c = '+' then (u.hexBody t).map Int.ofNat
    else (u.hexBody (c :: t)).map Int.ofNat

/-- `int(s, 16)`. -/
def int16 (s : Str) : Py Int :=
  match u.hexSigned ((s.dropWhile u.intSpace).reverse.dropWhile u.intSpace).reverse with
  | some i => .ok i
  | none => .error .valueError

end UniTable

/-- `s.split(sep)` with a separator of one character. -/
def splitOn (sep : Char) : Str → List Str
  | [] => [[]]
  | c :: r =>
    if c = sep then [] :: splitOn sep r
    else match splitOn sep r with
      | w :: ws => (c :: w) :: ws
      | [] => [[c]]

/-- `[f(x) for x in l]`. -/
def listMap {α β : Type} (f : α → Py β) : List α → Py (List β)
  | [] => .ok []
  | x :: xs => do
    let y ← f x
    let ys ← listMap f xs
    return y :: ys

end CBus

namespace CBus.Cbz
open CBus

/-- A value of a project structure as the `json` module sees it. The module cannot
write the other values; they do not occur here. -/
def toJson : CVal → Py JVal
  | .none => .ok .null
  | .str s => .ok (.str s)
  | .int i => .ok (.num (.int i))
  | _ => .error .typeError

/-- The key of a JSON object for a Python key. -/
def keyStr : Option Int → Str
  | some i => intStr i
  | none => "null".toList

/-- A Python dictionary with such keys as the JSON object that is written. -/
def jsonDict (d : List (Option Int × JVal)) : JVal := .obj (d.map fun p => (keyStr p.1, p.2))

/-- An attribute as JSON. -/
def jattr (v : CVal) (name : String) : Py JVal := do
  let w ← getattr v name
  toJson w

/-- The loop over the groups, dump_labels.py:86-87. -/
def dumpGroups : List (Option Int × JVal) → List CVal → Py (List (Option Int × JVal))
  | d, [] => .ok d
  | d, g :: gs => do
    let name ← jattr g "tag_name"
    let address ← getattr g "address"
    let key ← keyOf address
    dumpGroups (dictSet d key name) gs

/-- The body of the loop over the applications, dump_labels.py:79-89. -/
def dumpApp (a : CVal) : Py JVal := do
  let name ← jattr a "tag_name"
  let address ← jattr a "address"
  let description ← jattr a "description"
  let gs ← getattr a "groups"
  let gs ← iter gs
  let groups ← dumpGroups [] gs
  return .obj [("name".toList, name), ("address".toList, address), ("description".toList, description),
    ("groups".toList, jsonDict groups)]

/-- `parameter.value.split(' ')` and the numbers of its items, dump_labels.py:96-97. -/
def dumpItems (env : Env) : CVal → Py (List Int)
  | .str s => listMap (fun c => env.uni.int16 (c.drop 2)) (splitOn ' ' s)
  | _ => .error .attributeError

/-- The loop over the parameters, dump_labels.py:93-97. -/
def dumpChannels (env : Env) : List Int → List CVal → Py (List Int)
  | channels, [] => .ok channels
  | channels, p :: ps => do
    let name ← getattr p "name"
    if eqStr name "GroupAddress".toList then do
      let value ← getattr p "value"
      let items ← dumpItems env value
      dumpChannels env (channels ++ items) ps
    else dumpChannels env channels ps

/-- The body of the loop over the units, dump_labels.py:91-110. -/
def dumpUnit (env : Env) (u : CVal) : Py JVal := do
  let pp ← getattr u "pp"
  let pp ← iter pp
  let channels ← dumpChannels env [] pp
  let name ← jattr u "tag_name"
  let address ← jattr u "address"
  let unittype ← jattr u "unit_type"
  let unitname ← jattr u "unit_name"
  let serial ← jattr u "serial_number"
  let catalog ← jattr u "catalog_number"
  return .obj [("name".toList, name), ("address".toList, address), ("unittype".toList, unittype),
    ("unitname".toList, unitname), ("serial".toList, serial), ("catalog".toList, catalog),
    ("groups".toList, .arr (channels.map fun i => .num (.int i)))]

/-- The loops that fill a dictionary by address, dump_labels.py:78-89, 91-110 and 66-112. -/
def dumpTable (f : CVal → Py JVal) :
    List (Option Int × JVal) → List CVal → Py (List (Option Int × JVal))
  | d, [] => .ok d
  | d, x :: xs => do
    let o ← f x
    let address ← getattr x "address"
    let key ← keyOf address
    dumpTable f (dictSet d key o) xs

/-- The body of the loop over the networks, dump_labels.py:69-112. -/
def dumpNet (env : Env) (n : CVal) : Py JVal := do
  let name ← jattr n "tag_name"
  let address ← jattr n "address"
  let number ← jattr n "network_number"
  let as ← getattr n "applications"
  let as ← iter as
  let applications ← dumpTable dumpApp [] as
  let us ← getattr n "units"
  let us ← iter us
  let units ← dumpTable (dumpUnit env) [] us
  return .obj [("name".toList, name), ("address".toList, address), ("networknumber".toList, number),
    ("applications".toList, jsonDict applications), ("units".toList, jsonDict units)]

/-- The structure that is dumped, dump_labels.py:65-112. -/
def dump (env : Env) (installation : CVal) : Py JVal := do
  let project ← getattr installation "project"
  let network ← getattr project "network"
  let ns ← iter network
  let o ← dumpTable (dumpNet env) [] ns
  return jsonDict o

/-- How `dump_labels.main` ends: the command line is refused, an exception
(`CBZException` or another), or success. -/
inductive DumpEnd
  | usage | cbzError | error (e : PyErr) | done
  deriving DecidableEq, Repr

/-- What there is in the output file: an earlier file (or none), an empty file, or
the dump with its indentation. -/
inductive DumpOut
  | old | empty | json (indent : Option Int) (j : JVal)
  deriving DecidableEq, Repr

/-- `dump_labels.main` with the parsed options, dump_labels.py:45-117. The option `--pretty` is
an integer or `None` and was read by `argparse`; zero is the same as `None`. -/
def dumpMain (env : Env) (pretty : Option Int) (input : File) : DumpEnd × DumpOut :=
  let go (indent : Option Int) : DumpEnd × DumpOut :=
    match open' env .path input with
    | none => (.cbzError, .old)
    | some (.error e) => (.error e, .old)
    | some (.ok installation) =>
      match dump env installation with
      | .error e => (.error e, .empty)
      | .ok j => (.done, .json indent j)
  match pretty with
  | none => go none
  | some p => if p = 0 then go none else if p < 0 then (.usage, .old) else go (some p)

/-! ## Graph -/

/-- A unit as `generate_graph` sees it: its name (which may be `null`) and groups. -/
structure GUnit where
  name : Option Str
  groups : List Int
  deriving DecidableEq, Repr

/-- `unit['groups']`, when it is a list of integers. -/
def intsOf : List JVal → Option (List Int)
  | [] => some []
  | .num (.int i) :: l => (intsOf l).map (i :: ·)
  | _ :: _ => none

/-- The parts of a unit that are used, graph.py:52-59. `none` stands for
anything else than `dump_labels` writes; this is not modelled. -/
def gunit : JVal → Option GUnit
  | .obj l =>
    match dictGet l "name".toList, dictGet l "groups".toList with
    | some (.str s), some (.arr g) => (intsOf g).map fun g => ⟨some s, g⟩
    | some .null, some (.arr g) => (intsOf g).map fun g => ⟨none, g⟩
    | _, _ => none
  | _ => none

/-- `network['units'].items()`, graph.py:51. -/
def gunits : JVal → Option (List GUnit)
  | .obj l =>
    match dictGet l "units".toList with
    | some (.obj us) => us.mapM fun p => gunit p.2
    | _ => none
  | _ => none

/-- `networks.items()`, graph.py:45. -/
def gnets : JVal → Option (List (Str × List GUnit))
  | .obj l => l.mapM fun p => (gunits p.2).map fun us => (p.1, us)
  | _ => none

/-- The name of a node: a unit, or a group address. -/
inductive GNode
  | unit (name : Option Str)
  | ga (i : Int)
  deriving DecidableEq, Repr

/-- The text of the name of a node, graph.py:52, 59 and 62. -/
def GNode.text : GNode → Option Str
  | .unit n => n
  | .ga i => some ("GA ".toList ++ intStr i)

/-- A subgraph: its name, its nodes and its edges in the order in which they are
added. -/
structure Subgraph where
  name : Str
  nodes : List GNode
  edges : List (Option Str × GNode)
  deriving DecidableEq, Repr

/-- `s.add(x)` for each item; the order in which a set is iterated is not modelled
(here: the order of insertion). -/
def setAdd (s : List Int) (l : List Int) : List Int :=
  l.foldl (fun s x => if x ∈ s then s else s ++ [x]) s

/-- The body of the loop over the units, graph.py:51-59. -/
def addUnit (g : Subgraph × List Int) (u : GUnit) : Subgraph × List Int :=
  ({ g.1 with
      nodes := g.1.nodes ++ [.unit u.name]
      edges := g.1.edges ++ (u.groups.filter (· ≠ 255)).map fun x => (u.name, .ga x) },
   setAdd g.2 u.groups)

/-- The body of the loop over the networks, graph.py:45-67. -/
def subgraph (id : Str) (units : List GUnit) : Subgraph :=
  let g := units.foldl addUnit (⟨"Network_".toList ++ id, [], []⟩, [])
  { g.1 with nodes := g.1.nodes ++ g.2.map .ga }

/-- `generate_graph`, graph.py:28-71. -/
def generateGraph (dump : JVal) : Option (List Subgraph) :=
  (gnets dump).map fun ns => ns.map fun p => subgraph p.1 p.2

end CBus.Cbz
