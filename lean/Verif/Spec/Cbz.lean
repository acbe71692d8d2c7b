import Verif.Model.Cbz
import Verif.Spec.Text
import Verif.Spec.Number

/-! # Meaning of a project file, stated without the loops of the code -/

namespace CBus.Spec.Cbz
open CBus CBus.Cbz

/-- `k` is what is left of a name without letter case, underscores and the final
letters `s`. -/
def IsKey (env : Env) (name k : Str) : Prop :=
  ∃ n, (env.lower name).filter (· ≠ '_') = k ++ List.replicate n 's' ∧ k.getLast? ≠ some 's'

/-- Two names that differ only in letter case, underscores and final letters `s`. -/
def SameName (env : Env) (a b : Str) : Prop := ∃ k, IsKey env a k ∧ IsKey env b k

/-- The items of a list with the same name as a field. -/
noncomputable def named {α : Type} (env : Env) (name : α → Str) (f : Field) (l : List α) : List α :=
  open Classical in l.filter fun x => SameName env (name x) f.name

/-- The value of a field of the object read from an element: a `Sequence` has the
values of all the children with the name of the field, in order; another field has
the value of the last of them, or else of the last attribute with that name, or
else `None`. -/
def FieldValue (env : Env) (e : Elem) (f : Field) (w : CVal) : Prop :=
  match f.type with
  | .seq t => ∃ vs, w = .list vs ∧ (named env Elem.tag f e.children).map (childValue env t) = vs.map .ok
  | .one t =>
    match (named env Elem.tag f e.children).getLast? with
    | some ch => childValue env t ch = .ok w
    | none =>
      match (named env Prod.fst f e.attrib).getLast? with
      | some kv => convertAttr env f.type kv.2 = .ok w
      | none => w = .none

/-- The type of the values of the children of a field. -/
def memberType : FType → CType
  | .one t => t
  | .seq t => t

/-! ## Values and what is wrong with them -/

/-- The value of an attribute for a field of a type. -/
inductive AttrValue (env : Env) : FType → Str → CVal → Prop
  | text (s : Str) : AttrValue env (.one .text) s (.str s)
  | int (s : Str) (i : Int) (h : DecimalText env.uni s i) : AttrValue env (.one .int) s (.int i)
  | uuid (s : Str) (n : Nat) (h : env.uuid s = .ok n) : AttrValue env (.one .uuid) s (.uuid n)

/-- What is raised for an attribute: `ValueError` for what is no number, the error of
`UUID`, and `TypeError` for everything that only children can have. -/
inductive AttrError (env : Env) : FType → Str → PyErr → Prop
  | int (s : Str) (h : ∀ i, ¬ DecimalText env.uni s i) : AttrError env (.one .int) s .valueError
  | uuid (s : Str) (e : PyErr) (h : env.uuid s = .error e) : AttrError env (.one .uuid) s e
  | datetime (s : Str) : AttrError env (.one .datetime) s .typeError
  | elem (c : Cls) (s : Str) : AttrError env (.one (.elem c)) s .typeError
  | seq (t : CType) (s : Str) : AttrError env (.seq t) s .typeError

/-- The value of the text of an element. A missing text is `None` (see C70). -/
inductive TextValue (env : Env) : CType → Option Str → CVal → Prop
  | text (s : Str) : TextValue env .text (some s) (.str s)
  | missing : TextValue env .text none (.str "None".toList)
  | int (s : Str) (i : Int) (h : DecimalText env.uni s i) : TextValue env .int (some s) (.int i)
  | uuid (s : Str) (n : Nat) (h : env.uuid s = .ok n) : TextValue env .uuid (some s) (.uuid n)
  | datetime (s : Str) (n : Nat) (h : env.iso s = .ok n) : TextValue env .datetime (some s) (.time n)

/-- What is raised for the text of an element. -/
inductive TextError (env : Env) : CType → Option Str → PyErr → Prop
  | int (s : Str) (h : ∀ i, ¬ DecimalText env.uni s i) : TextError env .int (some s) .valueError
  | uuid (s : Str) (e : PyErr) (h : env.uuid s = .error e) : TextError env .uuid (some s) e
  | datetime (s : Str) (e : PyErr) (h : env.iso s = .error e) : TextError env .datetime (some s) e
  | missing (t : CType) (h : t = .int ∨ t = .uuid ∨ t = .datetime) : TextError env t none .typeError

/-- Nothing is wrong with an attribute: if there is a field for it, it has a value. -/
def AttrFine (env : Env) (c : Cls) (kv : Str × Str) : Prop :=
  ∀ f ∈ fields c, SameName env kv.1 f.name → ∃ v, AttrValue env f.type kv.2 v

/-- Nothing is wrong with a child. -/
def ChildFine (env : Env) (c : Cls) (ch : Elem) : Prop :=
  ∀ f ∈ fields c, SameName env ch.tag f.name → ∃ v, childValue env (memberType f.type) ch = .ok v

/-- What is raised for an element: the error of the first attribute with which something
is wrong, or else of the first child, which can be nested. -/
inductive ElementError (env : Env) : CType → Elem → PyErr → Prop
  | attr (c : Cls) (tag : Str) (pre : List (Str × Str)) (kv : Str × Str) (post : List (Str × Str))
      (text : Option Str) (children : List Elem) (f : Field) (err : PyErr) (hp : ∀ x ∈ pre, AttrFine env c x)
      (hf : f ∈ fields c) (hn : SameName env kv.1 f.name) (he : AttrError env f.type kv.2 err) :
      ElementError env (.elem c) (.mk tag (pre ++ kv :: post) text children) err
  | child (c : Cls) (tag : Str) (attrib : List (Str × Str)) (text : Option Str) (pre : List Elem) (ch : Elem)
      (post : List Elem) (f : Field) (err : PyErr) (ha : ∀ x ∈ attrib, AttrFine env c x)
      (hp : ∀ x ∈ pre, ChildFine env c x) (hf : f ∈ fields c) (hn : SameName env ch.tag f.name)
      (he : ElementError env (memberType f.type) ch err) :
      ElementError env (.elem c) (.mk tag attrib text (pre ++ ch :: post)) err
  | text (t : CType) (e : Elem) (err : PyErr) (h : ∀ c, t ≠ .elem c) (he : TextError env t e.text err) :
      ElementError env t e err

/-! ## Labels -/

/-- The object has an attribute. -/
def Attr (v : CVal) (n : String) (w : CVal) : Prop :=
  ∃ c attrs, v = .obj c attrs ∧ dictGet attrs n.toList = some w

def optInt : Option Int → CVal
  | some i => .int i
  | none => .none

def optStr : Option Str → CVal
  | some s => .str s
  | none => .none

/-- A property of corresponding members of two lists of the same length. -/
def All2 {α β : Type} (r : α → β → Prop) : List α → List β → Prop
  | [], [] => True
  | a :: as, b :: bs => r a b ∧ All2 r as bs
  | _, _ => False

/-- What matters of a group: its address and its name. -/
structure Group where
  address : Option Int
  name : Option Str
  deriving DecidableEq, Repr

/-- What matters of an application. -/
structure App where
  address : Option Int
  groups : List Group
  deriving DecidableEq, Repr

/-- What matters of a network. -/
structure Net where
  interfaceType : Option Str
  apps : List App
  deriving DecidableEq, Repr

def IsGroup (v : CVal) (g : Group) : Prop :=
  Attr v "address" (optInt g.address) ∧ Attr v "tag_name" (optStr g.name)

def IsApp (v : CVal) (a : App) : Prop :=
  Attr v "address" (optInt a.address) ∧ ∃ gs, Attr v "groups" (.list gs) ∧ All2 IsGroup gs a.groups

def IsNet (v : CVal) (n : Net) : Prop :=
  (∃ i, Attr v "interface" i ∧ Attr i "interface_type" (optStr n.interfaceType)) ∧
  ∃ as, Attr v "applications" (.list as) ∧ All2 IsApp as n.apps

/-- The object is an installation whose project has these networks. -/
def IsInstallation (v : CVal) (nets : List Net) : Prop :=
  ∃ p ns, Attr v "project" p ∧ Attr p "network" (.list ns) ∧ All2 IsNet ns nets

/-- `x` is the only member of the list with a property. -/
def Only {α : Type} (p : α → Prop) (l : List α) (x : α) : Prop :=
  ∃ pre post, l = pre ++ x :: post ∧ p x ∧ (∀ y ∈ pre, ¬ p y) ∧ ∀ y ∈ post, ¬ p y

/-- A network that is connected directly, not through a bridge. -/
def Net.Direct (n : Net) : Prop := n.interfaceType ≠ some "bridge".toList

/-- The lighting application, 0x38. -/
def App.Lighting (a : App) : Prop := a.address = some 56

/-- The application whose groups have labels. -/
def Labelled (nets : List Net) (a : App) : Prop :=
  ∃ n, Only Net.Direct nets n ∧ Only App.Lighting n.apps a

/-- How an address is written in a default name; a group can lack an address. -/
def addressText : Option Int → String
  | some a => toString a
  | none => "None"

/-- `l` is a proper name for the group address `a`, made from the text `t`: without
white space around it, not empty and not a default name. -/
def Proper (env : Env) (a : Option Int) (t l : Str) : Prop :=
  Stripped env.uni.isSpace t l ∧ l ≠ [] ∧ l ≠ "<Unused>".toList ∧ l ≠ ("Group " ++ addressText a).toList

/-- The last properly named group with the address `a` is called `l`. -/
def LastNamed (env : Env) (gs : List Group) (a : Option Int) (l : Str) : Prop :=
  ∃ pre t post, gs = pre ++ ⟨a, some t⟩ :: post ∧ Proper env a t l ∧
    ∀ t' l', ⟨a, some t'⟩ ∈ post → ¬ Proper env a t' l'

/-! ## The files that Toolkit writes -/

/-- `<tag>text</tag>`. -/
def textElem (tag : String) (s : Str) : Elem := .mk tag.toList [] (if s = [] then none else some s) []

/-- A group: its address and its name. -/
def groupXml (g : Int × Str) : Elem :=
  .mk "Group".toList [] none [textElem "TagName" g.2, textElem "Address" (toString g.1).toList]

/-- An application: its address, its name and its groups. -/
def appXml (a : Int × Str × List (Int × Str)) : Elem :=
  .mk "Application".toList [] none
    (textElem "TagName" a.2.1 :: textElem "Address" (toString a.1).toList :: a.2.2.map groupXml)

/-- A network: its address, the type of its interface and its applications. -/
def netXml (n : Int × Str × List (Int × Str × List (Int × Str))) : Elem :=
  .mk "Network".toList [] none
    (textElem "Address" (toString n.1).toList :: textElem "NetworkNumber" (toString n.1).toList ::
      .mk "Interface".toList [] none [textElem "InterfaceType" n.2.1] :: n.2.2.map appXml)

/-- A project file. -/
def installationXml (version name : Str) (nets : List (Int × Str × List (Int × Str × List (Int × Str)))) : Elem :=
  .mk "Installation".toList [] none [textElem "Version" version,
    .mk "Project".toList [] none (textElem "TagName" name :: nets.map netXml)]

/-- The text that is read from `<tag>text</tag>`: an empty element reads as `None`
(see C70). -/
def shown (s : Str) : Str := if s = [] then "None".toList else s

def describeGroup (g : Int × Str) : Group := ⟨some g.1, some (shown g.2)⟩

def describeApp (a : Int × Str × List (Int × Str)) : App := ⟨some a.1, a.2.2.map describeGroup⟩

def describeNet (n : Int × Str × List (Int × Str × List (Int × Str))) : Net :=
  ⟨some (shown n.2.1), n.2.2.map describeApp⟩

end CBus.Spec.Cbz
