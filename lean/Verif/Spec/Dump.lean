import Verif.Model.Dump
import Verif.Spec.Cbz

/-! # What a dump of a project contains -/

namespace CBus.Spec.Dump
open CBus CBus.Cbz CBus.Spec.Cbz

/-- An application with its names. -/
structure App where
  address : Option Int
  name : Option Str
  description : Option Str
  groups : List Group
  deriving DecidableEq, Repr

/-- A unit. Its parameters are pairs of a name and a value. -/
structure Unit where
  address : Option Int
  name : Option Str
  unitType : Option Str
  unitName : Option Str
  serial : Option Str
  catalog : Option Str
  params : List (Option Str × Option Str)
  deriving DecidableEq, Repr

/-- A network. -/
structure Net where
  address : Option Int
  name : Option Str
  number : Option Int
  apps : List App
  units : List Unit
  deriving DecidableEq, Repr

def IsApp (v : CVal) (a : App) : Prop :=
  Attr v "address" (optInt a.address) ∧ Attr v "tag_name" (optStr a.name) ∧
  Attr v "description" (optStr a.description) ∧
  ∃ gs, Attr v "groups" (.list gs) ∧ All2 IsGroup gs a.groups

def IsParam (v : CVal) (p : Option Str × Option Str) : Prop :=
  Attr v "name" (optStr p.1) ∧ Attr v "value" (optStr p.2)

def IsUnit (v : CVal) (u : Unit) : Prop :=
  Attr v "address" (optInt u.address) ∧ Attr v "tag_name" (optStr u.name) ∧
  Attr v "unit_type" (optStr u.unitType) ∧ Attr v "unit_name" (optStr u.unitName) ∧
  Attr v "serial_number" (optStr u.serial) ∧ Attr v "catalog_number" (optStr u.catalog) ∧
  ∃ ps, Attr v "pp" (.list ps) ∧ All2 IsParam ps u.params

def IsNet (v : CVal) (n : Net) : Prop :=
  Attr v "address" (optInt n.address) ∧ Attr v "tag_name" (optStr n.name) ∧
  Attr v "network_number" (optInt n.number) ∧
  (∃ as, Attr v "applications" (.list as) ∧ All2 IsApp as n.apps) ∧
  ∃ us, Attr v "units" (.list us) ∧ All2 IsUnit us n.units

/-- The object is an installation whose project has these networks. -/
def IsInstallation (v : CVal) (nets : List Net) : Prop :=
  ∃ p ns, Attr v "project" p ∧ Attr p "network" (.list ns) ∧ All2 IsNet ns nets

/-! ## The JSON values -/

def jInt : Option Int → JVal
  | some i => .num (.int i)
  | none => .null

def jStr : Option Str → JVal
  | some s => .str s
  | none => .null

/-- The key for an address. -/
def addressKey : Option Int → Str
  | some i => (toString i).toList
  | none => "null".toList

/-- `x` is the last item with its key. -/
def LastWith {α : Type} (key : α → Option Int) (xs : List α) (x : α) : Prop :=
  ∃ pre post, xs = pre ++ x :: post ∧ ∀ y ∈ post, key y ≠ key x

/-- The JSON object has one entry for each address that occurs, which describes the
last item with this address. -/
def Table {α : Type} (key : α → Option Int) (r : α → JVal → Prop) (xs : List α) (j : JVal) : Prop :=
  ∃ d, j = .obj d ∧ (d.map (·.1)).Nodup ∧ (∀ x ∈ xs, addressKey (key x) ∈ d.map (·.1)) ∧
    ∀ k v, (k, v) ∈ d → ∃ x, LastWith key xs x ∧ k = addressKey (key x) ∧ r x v

/-- `items` are the parts of a text that single spaces separate. -/
def Parts (s : Str) (items : List Str) : Prop :=
  items ≠ [] ∧ (∀ w ∈ items, ' ' ∉ w) ∧ s = List.intercalate [' '] items

/-- The numbers in the value of a parameter: of each part the first two characters
(`0x`) are left out and Python reads the rest as a hexadecimal number. -/
def Numbers (env : Env) (value : Option Str) (l : List Int) : Prop :=
  ∃ s items, value = some s ∧ Parts s items ∧
    All2 (fun w i => HexText env.uni (w.drop 2) i) items l

/-- The groups of a unit: the numbers of all the parameters that are called
`GroupAddress`, in order. -/
def UnitGroups (env : Env) : List (Option Str × Option Str) → List Int → Prop
  | [], l => l = []
  | p :: ps, l =>
    (p.1 = some "GroupAddress".toList ∧ ∃ l1 l2, l = l1 ++ l2 ∧ Numbers env p.2 l1 ∧ UnitGroups env ps l2) ∨
    (p.1 ≠ some "GroupAddress".toList ∧ UnitGroups env ps l)

/-- What is raised for the value of a parameter that is called `GroupAddress`: the value
is missing, or one of its parts is no hexadecimal number. -/
inductive NumbersError (env : Env) : Option Str → PyErr → Prop
  | missing : NumbersError env none .attributeError
  | part (s : Str) (items : List Str) (w : Str) (hp : Parts s items) (hw : w ∈ items)
      (h : ∀ i, ¬ HexText env.uni (w.drop 2) i) : NumbersError env (some s) .valueError

/-- What is raised for the parameters of a unit: the error of the first with which
something is wrong. -/
def UnitError (env : Env) (params : List (Option Str × Option Str)) (err : PyErr) : Prop :=
  ∃ pre p post, params = pre ++ p :: post ∧ (∃ l, UnitGroups env pre l) ∧ p.1 = some "GroupAddress".toList ∧
    NumbersError env p.2 err

/-- What is raised for a project: the error of the first unit of the first network. -/
def DumpError (env : Env) (nets : List Net) (err : PyErr) : Prop :=
  ∃ npre n npost upre u upost, nets = npre ++ n :: npost ∧ n.units = upre ++ u :: upost ∧
    (∀ m ∈ npre, ∀ x ∈ m.units, ∃ l, UnitGroups env x.params l) ∧ (∀ x ∈ upre, ∃ l, UnitGroups env x.params l) ∧
    UnitError env u.params err

def IsGroupJson (g : Group) (j : JVal) : Prop := j = jStr g.name

def IsAppJson (a : App) (j : JVal) : Prop :=
  ∃ groups, Table Group.address IsGroupJson a.groups groups ∧
    j = .obj [("name".toList, jStr a.name), ("address".toList, jInt a.address),
      ("description".toList, jStr a.description), ("groups".toList, groups)]

def IsUnitJson (env : Env) (u : Unit) (j : JVal) : Prop :=
  ∃ l, UnitGroups env u.params l ∧
    j = .obj [("name".toList, jStr u.name), ("address".toList, jInt u.address),
      ("unittype".toList, jStr u.unitType), ("unitname".toList, jStr u.unitName),
      ("serial".toList, jStr u.serial), ("catalog".toList, jStr u.catalog),
      ("groups".toList, .arr (l.map fun i => .num (.int i)))]

def IsNetJson (env : Env) (n : Net) (j : JVal) : Prop :=
  ∃ apps units, Table App.address IsAppJson n.apps apps ∧
    Table Unit.address (IsUnitJson env) n.units units ∧
    j = .obj [("name".toList, jStr n.name), ("address".toList, jInt n.address),
      ("networknumber".toList, jInt n.number), ("applications".toList, apps), ("units".toList, units)]

/-- The dump of a project with these networks. -/
def IsDump (env : Env) (nets : List Net) (j : JVal) : Prop :=
  Table Net.address (IsNetJson env) nets j

/-! ## The files that Toolkit writes -/

/-- A hexadecimal digit in lower case. -/
def hexChar (n : Nat) : Char := if n < 10 then Char.ofNat (48 + n) else Char.ofNat (87 + n)

/-- `0x22`: a byte in the way of Toolkit. -/
def hexByte (n : UInt8) : Str := ['0', 'x', hexChar (n.toNat / 16), hexChar (n.toNat % 16)]

/-- What is dumped of a unit with its group addresses, and further parameters. -/
structure UnitFile where
  address : Int
  name : Str
  unitType : Str
  unitName : Str
  serial : Str
  catalog : Str
  groups : List UInt8
  params : List (Str × Str)

/-- An application of a file: address, name, groups (address and name). -/
structure AppFile where
  address : Int
  name : Str
  description : Str
  groups : List (Int × Str)

structure NetFile where
  address : Int
  name : Str
  number : Int
  interfaceType : Str
  apps : List AppFile
  units : List UnitFile

/-- `<PP Name="..." Value="..."/>`. -/
def paramXml (p : Str × Str) : Elem :=
  .mk "PP".toList [("Name".toList, p.1), ("Value".toList, p.2)] none []

/-- The group addresses as a parameter; none if there are no groups. -/
def groupParam (gs : List UInt8) : List (Str × Str) :=
  if gs = [] then [] else [("GroupAddress".toList, List.intercalate [' '] (gs.map hexByte))]

def unitXml (u : UnitFile) : Elem :=
  .mk "Unit".toList [] none
    (textElem "TagName" u.name :: textElem "Address" (toString u.address).toList ::
      textElem "UnitType" u.unitType :: textElem "UnitName" u.unitName ::
      textElem "SerialNumber" u.serial :: textElem "CatalogNumber" u.catalog ::
      (u.params ++ groupParam u.groups).map paramXml)

def appXml (a : AppFile) : Elem :=
  .mk "Application".toList [] none
    (textElem "TagName" a.name :: textElem "Address" (toString a.address).toList ::
      textElem "Description" a.description :: a.groups.map groupXml)

def netXml (n : NetFile) : Elem :=
  .mk "Network".toList [] none
    (textElem "TagName" n.name :: textElem "Address" (toString n.address).toList ::
      textElem "NetworkNumber" (toString n.number).toList ::
      .mk "Interface".toList [] none [textElem "InterfaceType" n.interfaceType] ::
      (n.apps.map appXml ++ n.units.map unitXml))

/-- A project file. -/
def projectXml (version name : Str) (nets : List NetFile) : Elem :=
  .mk "Installation".toList [] none [textElem "Version" version,
    .mk "Project".toList [] none (textElem "TagName" name :: nets.map netXml)]

/-- The dump of a unit of a file. -/
def unitJson (u : UnitFile) : JVal :=
  .obj [("name".toList, .str (shown u.name)), ("address".toList, .num (.int u.address)),
    ("unittype".toList, .str (shown u.unitType)), ("unitname".toList, .str (shown u.unitName)),
    ("serial".toList, .str (shown u.serial)), ("catalog".toList, .str (shown u.catalog)),
    ("groups".toList, .arr (u.groups.map fun g => .num (.int g.toNat)))]

/-- The dump of an application whose groups have different addresses. -/
def appJson (a : AppFile) : JVal :=
  .obj [("name".toList, .str (shown a.name)), ("address".toList, .num (.int a.address)),
    ("description".toList, .str (shown a.description)),
    ("groups".toList, .obj (a.groups.map fun g => ((toString g.1).toList, .str (shown g.2))))]

/-- The dump of a network whose members have different addresses. -/
def netJson (n : NetFile) : JVal :=
  .obj [("name".toList, .str (shown n.name)), ("address".toList, .num (.int n.address)),
    ("networknumber".toList, .num (.int n.number)),
    ("applications".toList, .obj (n.apps.map fun a => ((toString a.address).toList, appJson a))),
    ("units".toList, .obj (n.units.map fun u => ((toString u.address).toList, unitJson u)))]

/-- The dump of a project whose networks have different addresses. -/
def projectJson (nets : List NetFile) : JVal :=
  .obj (nets.map fun n => ((toString n.address).toList, netJson n))

/-- Nothing in the file has the address of something else of its kind. -/
def Distinct (nets : List NetFile) : Prop :=
  (nets.map NetFile.address).Nodup ∧ ∀ n ∈ nets, (n.apps.map AppFile.address).Nodup ∧
    (n.units.map UnitFile.address).Nodup ∧ ∀ a ∈ n.apps, (a.groups.map (·.1)).Nodup

end CBus.Spec.Dump
