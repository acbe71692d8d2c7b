import Verif.Model.Json

/-! # Toolkit project files

`/repo/cbus/toolkit/cbz.py` and `read_cbz_labels` of
`/repo/cbus/daemon/cmqttd.py`. The XML parser and the ZIP reader are not
modelled: the model starts from the tree of elements and from the list of the
members of the archive. -/

namespace CBus.Cbz
open CBus

/-- What the code takes from Python's library, apart from characters:
`str.lower` (right about ASCII), the constructor `uuid.UUID(text)` and
`datetime.fromisoformat(text)`. What the last two return is not looked at, so
they return an unspecified number. -/
structure Env where
  uni : UniTable
  lower : Str → Str
  ascii_lower : ∀ s : Str, (∀ c ∈ s, c.toNat < 128) → lower s = s.map Char.toLower
  uuid : Str → Py Nat
  iso : Str → Py Nat

/-- A Python that knows only ASCII, with a `UUID` that checks only the number of
hexadecimal digits. -/
def Env.ascii : Env where
  uni := UniTable.ascii
  lower s := s.map Char.toLower
  ascii_lower _ _ := rfl
  uuid s := if (s.filter (· ≠ '-')).length = 32 then .ok 0 else .error .valueError
  iso _ := .ok 0

/-- `ElementTree.Element`: the tag, the attributes, the text before the first
child (`None` if there is none) and the children. -/
inductive Elem
  | mk (tag : Str) (attrib : List (Str × Str)) (text : Option Str) (children : List Elem)
  deriving Repr

def Elem.tag : Elem → Str | .mk t _ _ _ => t
def Elem.attrib : Elem → List (Str × Str) | .mk _ a _ _ => a
def Elem.text : Elem → Option Str | .mk _ _ t _ => t
def Elem.children : Elem → List Elem | .mk _ _ _ c => c

/-- The element classes that are instantiated, cbz.py:115-202. -/
inductive Cls
  | pp | interface | unit | level | group | application | network | project
  | installer | installationDetail | installation
  deriving DecidableEq, Repr

/-- Types of single values: `Text`, `int`, `UUID`, `datetime`, another class. -/
inductive CType
  | text | int | uuid | datetime | elem (c : Cls)
  deriving DecidableEq, Repr

/-- Types of fields: a single value or `Sequence[...]`. -/
inductive FType
  | one (t : CType)
  | seq (t : CType)
  deriving DecidableEq, Repr

/-- A field of a dataclass. -/
structure Field where
  name : Str
  type : FType
  deriving DecidableEq, Repr

/-- `BaseCBZElement`, cbz.py:121-123. -/
def baseFields : List Field := [⟨"oid".toList, .one .uuid⟩]

/-- `BaseNetworkElement`, cbz.py:126-130. -/
def baseNetworkFields : List Field :=
  baseFields ++ [⟨"tag_name".toList, .one .text⟩, ⟨"address".toList, .one .int⟩,
    ⟨"description".toList, .one .text⟩]

/-- `dataclasses.fields(cls)`: the fields of the bases come first. -/
def fields : Cls → List Field
  -- 115-118
  | .pp => [⟨"name".toList, .one .text⟩, ⟨"value".toList, .one .text⟩]
  -- 133-136
  | .interface => baseFields ++ [⟨"interface_type".toList, .one .text⟩,
      ⟨"interface_address".toList, .one .text⟩]
  -- 139-146
  | .unit => baseNetworkFields ++ [⟨"unit_type".toList, .one .text⟩,
      ⟨"unit_name".toList, .one .text⟩, ⟨"serial_number".toList, .one .text⟩,
      ⟨"firmware_version".toList, .one .text⟩, ⟨"catalog_number".toList, .one .text⟩,
      ⟨"pp".toList, .seq (.elem .pp)⟩]
  -- 149-151
  | .level => baseNetworkFields ++ [⟨"value".toList, .one .int⟩]
  -- 154-156
  | .group => baseNetworkFields ++ [⟨"levels".toList, .seq (.elem .level)⟩]
  -- 159-161
  | .application => baseNetworkFields ++ [⟨"groups".toList, .seq (.elem .group)⟩]
  -- 164-169
  | .network => baseNetworkFields ++ [⟨"network_number".toList, .one .int⟩,
      ⟨"interface".toList, .one (.elem .interface)⟩,
      ⟨"applications".toList, .seq (.elem .application)⟩,
      ⟨"units".toList, .seq (.elem .unit)⟩]
  -- 172-177
  | .project => baseFields ++ [⟨"tag_name".toList, .one .text⟩, ⟨"address".toList, .one .text⟩,
      ⟨"description".toList, .one .text⟩, ⟨"network".toList, .seq (.elem .network)⟩]
  -- 180-182
  | .installer => baseFields ++ [⟨"name".toList, .one .text⟩]
  -- 185-193
  | .installationDetail => baseFields ++ [⟨"system_location".toList, .one .text⟩,
      ⟨"hardware_platform".toList, .one .text⟩, ⟨"hostname".toList, .one .text⟩,
      ⟨"os_name".toList, .one .text⟩, ⟨"os_version".toList, .one .text⟩,
      ⟨"hardware_location".toList, .one .text⟩, ⟨"installer".toList, .one (.elem .installer)⟩]
  -- 196-202
  | .installation => baseFields ++ [⟨"db_version".toList, .one .text⟩,
      ⟨"version".toList, .one .text⟩, ⟨"modified".toList, .one .datetime⟩,
      ⟨"installation_detail".toList, .one (.elem .installationDetail)⟩,
      ⟨"project".toList, .one (.elem .project)⟩]

/-- A Python object held by a project structure: `None`, a string, an integer, a
`UUID`, a `datetime`, a list, or an instance of a class with its attributes. -/
inductive CVal
  | none
  | str (s : Str)
  | int (i : Int)
  | uuid (n : Nat)
  | time (n : Nat)
  | list (l : List CVal)
  | obj (c : Cls) (attrs : List (Str × CVal))
  deriving Repr

/-- `_new`, cbz.py:36-44: a list for `Sequence`, otherwise `None`. -/
def new : FType → CVal
  | .one _ => .none
  | .seq _ => .list []

/-- `s.rstrip('s')`. -/
def rstripS (s : Str) : Str := (s.reverse.dropWhile (· = 's')).reverse

/-- `_Element._normalise_name`, cbz.py:49-51. -/
def normalise (env : Env) (name : Str) : Str := rstripS ((env.lower name).filter (· ≠ '_'))

/-- `field_names.index(key)` and `fields[findex]`, cbz.py:59, 69-75, 85-91: the
first field with that normalised name. -/
def lookup (env : Env) (c : Cls) (key : Str) : Option Field :=
  (fields c).find? fun f => normalise env f.name = key

/-- `field.type(value)` with a string, cbz.py:76. The classes need at least two
arguments, `datetime` three, and a `Sequence` cannot be instantiated: all of
these raise `TypeError`. (`datetime` also takes its pickled state, a text of ten
characters of which the third is a control character; this is not modelled.) -/
def convertAttr (env : Env) : FType → Str → Py CVal
  | .one .text, s => .ok (.str s)
  | .one .int, s => (env.uni.intOf s).map .int
  | .one .uuid, s => (env.uuid s).map .uuid
  | .one .datetime, _ => .error .typeError
  | .one (.elem _), _ => .error .typeError
  | .seq _, _ => .error .typeError

/-- The body of the loop over the attributes, cbz.py:66-76. -/
def readAttr (env : Env) (c : Cls) (params : List (Str × CVal)) (kv : Str × Str) :
    Py (List (Str × CVal)) :=
  match lookup env c (normalise env kv.1) with
  | none => .ok params
  | some f =>
    match convertAttr env f.type kv.2 with
    | .ok v => .ok (dictSet params f.name v)
    | .error e => .error e

/-- The loop over the attributes, cbz.py:66-76. -/
def readAttrs (env : Env) (c : Cls) : List (Str × CVal) → List (Str × Str) → Py (List (Str × CVal))
  | params, [] => .ok params
  | params, kv :: rest =>
    match readAttr env c params kv with
    | .ok params => readAttrs env c params rest
    | .error e => .error e

/-- The type of a child, cbz.py:92-96: the argument of `Sequence[...]` if the
parameter is a list. If the parameter is not a list but the type is a
`Sequence` (which does not happen) the `issubclass` of line 98 raises. -/
def childType (f : Field) (cur : Option CVal) : Py CType :=
  match cur, f.type with
  | some (.list _), .seq t => .ok t
  | some (.list _), .one _ => .error .attributeError
  | _, .one t => .ok t
  | _, .seq _ => .error .typeError

/-- The value of a child that is not an element class, cbz.py:101-104, from
`child.text`. `str(None)` is `'None'`; the others raise `TypeError` on `None`. -/
def convertText (env : Env) : CType → Option Str → Py CVal
  | .text, some s => .ok (.str s)
  | .text, none => .ok (.str "None".toList)
  | .int, some s => (env.uni.intOf s).map .int
  | .uuid, some s => (env.uuid s).map .uuid
  | .datetime, some s => (env.iso s).map .time
  | _, none => .error .typeError
  | .elem _, some _ => .error .typeError

/-- Appending or assigning, cbz.py:106-109. -/
def store (params : List (Str × CVal)) (name : Str) (v : CVal) : List (Str × CVal) :=
  match dictGet params name with
  | some (.list l) => dictSet params name (.list (l ++ [v]))
  | _ => dictSet params name v

/-- The initial values, cbz.py:61-63. -/
def initParams (c : Cls) : List (Str × CVal) := (fields c).map fun f => (f.name, new f.type)

mutual
/-- The value of one child, cbz.py:98-104. For an element class this is
`from_element`, cbz.py:53-112. -/
def childValue (env : Env) : CType → Elem → Py CVal
  | .elem c, .mk _ attrib _ children =>
    match readAttrs env c (initParams c) attrib with
    | .error e => .error e
    | .ok params =>
      match readChildren env c params children with
      | .ok params => .ok (.obj c params)
      | .error e => .error e
  | t, .mk _ _ text _ => convertText env t text

/-- The loop over the children, cbz.py:78-109. -/
def readChildren (env : Env) (c : Cls) : List (Str × CVal) → List Elem → Py (List (Str × CVal))
  | params, [] => .ok params
  | params, e :: rest =>
    match lookup env c (normalise env e.tag) with
    | none => readChildren env c params rest
    | some f =>
      match childType f (dictGet params f.name) with
      | .error err => .error err
      | .ok t =>
        match childValue env t e with
        | .error err => .error err
        | .ok v => readChildren env c (store params f.name v) rest
end

/-- `_Element.from_element`, cbz.py:53-112. -/
def fromElement (env : Env) (c : Cls) (e : Elem) : Py CVal := childValue env (.elem c) e

/-- What `ZipFile(fh, 'r')` finds: not an archive (`BadZipFile`), or the names of
the members with what `ElementTree.parse` makes of each (an error if it is not
well-formed XML). -/
inductive File
  | plain (root : Py Elem)
  | zip (members : List (Str × Py Elem))

/-- What `CBZ` is given: the name of a file, which is opened anew for each attempt to
read it (dump_labels.py:59), or a binary file that is already open, at its
beginning (cmqttd.py:277, 411-413). The latter may be one in which it is possible
to seek or not (a pipe as the standard input, `-P -`). -/
inductive Source
  | path
  | handle (seekable : Bool)
  deriving DecidableEq, Repr

/-- What `ElementTree.parse` makes of a file that `ZipFile` refused with
`BadZipFile`, cbz.py:218-222, 241. `ZipFile` looks for the directory of an
archive at the end of the file, so an open file is left at its end, where there
is no element (`ParseError`). Without seeking nothing is read. -/
def parseAfterZip : Source → Py Elem → Py Elem
  | .path, root => root
  | .handle true, _ => .error .parseError
  | .handle false, root => root

/-- `CBZ.__init__`, cbz.py:211-243. `none` is `CBZException`. An archive in which
it is not possible to seek is refused by `ZipFile` with `BadZipFile`, and is not
well-formed as XML. -/
def open' (env : Env) (src : Source) : File → Option (Py CVal)
  | .plain root => some ((parseAfterZip src root).bind (fromElement env .installation))
  | .zip members =>
    if src = .handle false then some (.error .parseError)
    else
      match members with
      | [(name, root)] =>
        if Str.endsWith name ".xml".toList then some (root.bind (fromElement env .installation))
        else none
      | _ => none

/-- A file opened by `FileType('rb')`, cmqttd.py:411-413. -/
structure OpenFile where
  file : File
  seekable : Bool := true

/-- `v.name`. -/
def getattr (v : CVal) (name : String) : Py CVal :=
  match v with
  | .obj _ attrs =>
    match dictGet attrs name.toList with
    | some w => .ok w
    | none => .error .attributeError
  | _ => .error .attributeError

/-- Iterating over a value. -/
def iter : CVal → Py (List CVal)
  | .list l => .ok l
  | .str s => .ok (s.map fun c => .str [c])
  | _ => .error .typeError

/-- `[x for x in l if cond(x)]`. -/
def listFilter {α : Type} (cond : α → Py Bool) : List α → Py (List α)
  | [] => .ok []
  | x :: xs => do
    let b ← cond x
    let r ← listFilter cond xs
    return if b then x :: r else r

/-- `x == y` for a value and a constant integer. -/
def eqInt (v : CVal) (n : Int) : Bool := match v with | .int i => i == n | _ => false

/-- `x == y` for a value and a constant string. -/
def eqStr (v : CVal) (s : Str) : Bool := match v with | .str t => t == s | _ => false

/-- The key of a group in the dictionary of labels: an address or `None`. -/
def keyOf : CVal → Py (Option Int)
  | .int i => .ok (some i)
  | .none => .ok none
  | _ => .error .typeError

/-- `f'Group {address}'`. -/
def groupName : Option Int → Str
  | some i => "Group ".toList ++ intStr i
  | none => "Group None".toList

/-- `v.strip()`. -/
def stripVal (env : Env) : CVal → Py Str
  | .str s => .ok (env.uni.strip s)
  | _ => .error .attributeError

/-- The loop over the groups, cmqttd.py:298-305. -/
def labelGroups (env : Env) : List (Option Int × Str) → List CVal → Py (List (Option Int × Str))
  | labels, [] => .ok labels
  | labels, g :: gs => do
    let tag ← getattr g "tag_name"
    let name ← stripVal env tag
    if name = [] then labelGroups env labels gs
    else do
      let address ← getattr g "address"
      let key ← keyOf address
      if name = "<Unused>".toList ∨ name = groupName key then labelGroups env labels gs
      else labelGroups env (dictSet labels key name) gs

/-- `read_cbz_labels` after the file is open, cmqttd.py:276-307. -/
def readLabels (env : Env) (installation : CVal) : Py (List (Option Int × Str)) := do
  let project ← getattr installation "project"
  let network ← getattr project "network"
  let all ← iter network
  let networks ← listFilter (fun n => do
    let i ← getattr n "interface"
    let t ← getattr i "interface_type"
    return !eqStr t "bridge".toList) all
  match networks with
  | [n] => do
    let as ← getattr n "applications"
    let as ← iter as
    let apps ← listFilter (fun a => do
      let address ← getattr a "address"
      return eqInt address 0x38) as
    match apps with
    | [a] => do
      let gs ← getattr a "groups"
      let gs ← iter gs
      labelGroups env [] gs
    | _ => return []
  | _ => return []

/-- `read_cbz_labels`, cmqttd.py:274-307. `none` is `CBZException`. -/
def readCbzLabels (env : Env) (f : OpenFile) : Option (Py (List (Option Int × Str))) :=
  (open' env (.handle f.seekable) f.file).map fun r => r.bind (readLabels env)

/-- The labels as the dictionary that `publish_all_lights` looks integers up in. -/
def intLabels (labels : List (Option Int × Str)) : List (Int × Str) :=
  labels.filterMap fun p => p.1.map fun a => (a, p.2)

end CBus.Cbz
