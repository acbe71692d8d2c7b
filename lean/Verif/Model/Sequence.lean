import Verif.Model.Packet

/-! # Packets and status reports as sequences

`PointToMultipointPacket`, `PointToPointPacket`, `BinaryStatusReport` and
`LevelStatusReport` are sequences of SALs, CALs, group states and levels: their
methods hand on to the list they hold. The methods that `collections.abc.Sequence` adds
(`in`, `reversed`, `count`) are CPython's. -/

namespace CBus

/-- `list[i]`. -/
def getItem {α : Type} (l : List α) (i : Int) : Py α :=
  let j := if i < 0 then i + l.length else i
  if j < 0 then .error .indexError
  else
    match l[j.toNat]? with
    | some x => .ok x
    | none => .error .indexError

/-- A bound in `list.index`: `Ellipsis` is not an index. -/
inductive Bound
  | ellipsis
  | int (i : Int)

/-- The position that `list.index` takes a bound for. -/
def Bound.position (n : Nat) : Bound → Py Nat
  | .ellipsis => .error .typeError
  | .int i => .ok (if i < 0 then (i + n).toNat else i.toNat)

/-- The loop of `list.index`. -/
def searchFrom {α : Type} (same : α → Bool) (stop : Nat) : Nat → List α → Py Nat
  | _, [] => .error .valueError
  | i, x :: l => if i < stop then (if same x then .ok i else searchFrom same stop (i + 1) l) else .error .valueError

/-- `list.index(x, start, stop)`, where `same` tells whether an element is `x`. The
elements have no `__eq__` of their own apart from dataclasses, so that this is not
settled by the values alone. -/
def listIndex {α : Type} (same : α → Bool) (l : List α) (start stop : Bound) : Py Nat :=
  match start.position l.length with
  | .error e => .error e
  | .ok i =>
    match stop.position l.length with
    | .error e => .error e
    | .ok j => searchFrom same j i (l.drop i)

/-- pm_packet.py:79-81 `__len__`. -/
def PM.len (p : PM) : Nat := p.sals.length
/-- pm_packet.py:83-85 `__getitem__`. -/
def PM.getItem (p : PM) (i : Int) : Py SAL := CBus.getItem p.sals i
/-- pm_packet.py:87-89 `__iter__`: what the iterator yields. -/
def PM.iter (p : PM) : List SAL := p.sals
/-- pm_packet.py:91-97 `index`, with the defaults of the code. -/
def PM.index (p : PM) (same : SAL → Bool) (start : Bound := .ellipsis) (stop : Bound := .ellipsis) : Py Nat :=
  listIndex same p.sals start stop

/-- pp_packet.py:63-65 `__len__`. -/
def PP.len (p : PP) : Nat := p.cals.length
/-- pp_packet.py:67-69 `__getitem__`. -/
def PP.getItem (p : PP) (i : Int) : Py CAL := CBus.getItem p.cals i
/-- pp_packet.py:71-73 `__iter__`: what the iterator yields. -/
def PP.iter (p : PP) : List CAL := p.cals
/-- pp_packet.py:75-81 `index`, with the defaults of the code. -/
def PP.index (p : PP) (same : CAL → Bool) (start : Bound := .ellipsis) (stop : Bound := .ellipsis) : Py Nat :=
  listIndex same p.cals start stop

/-- report.py:91-92 `BinaryStatusReport.__len__`. -/
def binaryLen (states : List GroupState) : Nat := states.length
/-- report.py:88-89 `BinaryStatusReport.__getitem__`. -/
def binaryGetItem (states : List GroupState) (i : Int) : Py GroupState := CBus.getItem states i
/-- report.py:94-95 `BinaryStatusReport.__iter__`: what the iterator yields. -/
def binaryIter (states : List GroupState) : List GroupState := states

/-- report.py:183-184 `LevelStatusReport.__len__`. -/
def levelLen (states : List (Option Int)) : Nat := states.length
/-- report.py:180-181 `LevelStatusReport.__getitem__`. -/
def levelGetItem (states : List (Option Int)) (i : Int) : Py (Option Int) := CBus.getItem states i
/-- report.py:186-187 `LevelStatusReport.__iter__`: what the iterator yields. -/
def levelIter (states : List (Option Int)) : List (Option Int) := states

/-- `collections.abc.Sequence.__reversed__` (CPython's Lib/_collections_abc.py): from
`__len__` and `__getitem__`. -/
def reversedOf {α : Type} (len : Nat) (get : Int → Py α) : Py (List α) :=
  (List.range len).reverse.mapM fun (i : Nat) => get i

end CBus
