import Verif.Model.Text

/-! # JSON values

What `json.loads` returns and `json.dumps` is given. For their texts see
`Model/JsonText.lean`. -/

namespace CBus

/-- A JSON value as a Python object. A `dict` is the list of its items, in order,
with distinct keys. -/
inductive JVal
  | null
  | bool (b : Bool)
  | num (x : PyNum)
  | str (s : Str)
  | arr (l : List JVal)
  | obj (l : List (Str × JVal))
  deriving Repr

namespace JVal

mutual
def decEq (a b : JVal) : Decidable (a = b) :=
  match a, b with
  | .null, b => by cases b <;> first | exact isTrue rfl | exact isFalse (by simp)
  | .bool x, .bool y => if h : x = y then isTrue (by rw [h]) else isFalse (by simpa using h)
  | .num x, .num y => if h : x = y then isTrue (by rw [h]) else isFalse (by simpa using h)
  | .str x, .str y => if h : x = y then isTrue (by rw [h]) else isFalse (by simpa using h)
  | .arr x, .arr y => match decEqList x y with
    | isTrue h => isTrue (by rw [h])
    | isFalse h => isFalse (by simpa using h)
  | .obj x, .obj y => match decEqObj x y with
    | isTrue h => isTrue (by rw [h])
    | isFalse h => isFalse (by simpa using h)
  | .bool _, .null | .bool _, .num _ | .bool _, .str _ | .bool _, .arr _ | .bool _, .obj _ => isFalse (by simp)
  | .num _, .null | .num _, .bool _ | .num _, .str _ | .num _, .arr _ | .num _, .obj _ => isFalse (by simp)
  | .str _, .null | .str _, .bool _ | .str _, .num _ | .str _, .arr _ | .str _, .obj _ => isFalse (by simp)
  | .arr _, .null | .arr _, .bool _ | .arr _, .num _ | .arr _, .str _ | .arr _, .obj _ => isFalse (by simp)
  | .obj _, .null | .obj _, .bool _ | .obj _, .num _ | .obj _, .str _ | .obj _, .arr _ => isFalse (by simp)
def decEqList (a b : List JVal) : Decidable (a = b) :=
  match a, b with
  | [], [] => isTrue rfl
  | [], _ :: _ => isFalse (by simp)
  | _ :: _, [] => isFalse (by simp)
  | x :: xs, y :: ys => match decEq x y, decEqList xs ys with
    | isTrue h1, isTrue h2 => isTrue (by rw [h1, h2])
    | isFalse h1, _ => isFalse (by simp [h1])
    | _, isFalse h2 => isFalse (by simp [h2])
def decEqObj (a b : List (Str × JVal)) : Decidable (a = b) :=
  match a, b with
  | [], [] => isTrue rfl
  | [], _ :: _ => isFalse (by simp)
  | _ :: _, [] => isFalse (by simp)
  | (k, x) :: xs, (l, y) :: ys =>
    if hk : k = l then
      match decEq x y, decEqObj xs ys with
      | isTrue h1, isTrue h2 => isTrue (by rw [hk, h1, h2])
      | isFalse h1, _ => isFalse (by simp [h1])
      | _, isFalse h2 => isFalse (by simp [h2])
    else isFalse (by simp [hk])
end

instance : DecidableEq JVal := decEq

end JVal

/-- `d.get(k)` of a `dict`. -/
def dictGet {κ α : Type} [DecidableEq κ] (d : List (κ × α)) (k : κ) : Option α :=
  (d.find? fun p => p.1 = k).map (·.2)

/-- `d[k] = v`. -/
def dictSet {κ α : Type} [DecidableEq κ] (d : List (κ × α)) (k : κ) (v : α) : List (κ × α) :=
  if d.any (fun p => p.1 = k) then d.map fun p => if p.1 = k then (k, v) else p else d ++ [(k, v)]

/-- `int(x)` for a JSON value. -/
def UniTable.intOfJson (u : UniTable) : JVal → Py Int
  | .null => .error .typeError
  | .bool b => .ok (if b then 1 else 0)
  | .num (.int i) => .ok i
  | .num (.flt q) => .ok (truncRat q)
  | .num .nan => .error .valueError
  | .num (.inf _) => .error .overflowError
  | .str s => u.intOf s
  | .arr _ => .error .typeError
  | .obj _ => .error .typeError

end CBus
