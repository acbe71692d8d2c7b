import Verif.Model.Dump
import Verif.Model.JsonText

/-! # The file that dump_labels writes and graph reads

`json.dump` (dump_labels.py:115), with and without indentation, and `json.load` (graph.py:37). -/

namespace CBus.Json
open CBus

/-- `newline_indent`: a line end and `indent` spaces for every level. -/
def newline (indent level : Nat) : Str := '\n' :: List.replicate (indent * level) ' '

mutual
/-- `json.dump(v, f, indent=indent)`: encoder.py `_make_iterencode` with the separators `','` and
`': '`. -/
def dumpsIn (env : JEnv) (indent level : Nat) : JVal → Str
  | .null => "null".toList
  | .bool b => if b then "true".toList else "false".toList
  | .num x => dumpNum env x
  | .str s => dumpString s
  | .arr l =>
    if l = [] then "[]".toList
    else '[' :: newline indent (level + 1) ++ itemsIn env indent (level + 1) l ++ newline indent level ++ [']']
  | .obj l =>
    if l = [] then "{}".toList
    else '{' :: newline indent (level + 1) ++ membersIn env indent (level + 1) l ++ newline indent level ++ ['}']
def itemsIn (env : JEnv) (indent level : Nat) : List JVal → Str
  | [] => []
  | [v] => dumpsIn env indent level v
  | v :: vs => dumpsIn env indent level v ++ [','] ++ newline indent level ++ itemsIn env indent level vs
def membersIn (env : JEnv) (indent level : Nat) : List (Str × JVal) → Str
  | [] => []
  | [(k, v)] => dumpString k ++ ": ".toList ++ dumpsIn env indent level v
  | (k, v) :: ms => dumpString k ++ ": ".toList ++ dumpsIn env indent level v ++ [','] ++ newline indent level ++
      membersIn env indent level ms
end

end CBus.Json

namespace CBus.Cbz
open CBus CBus.Json

/-- What is in the output file, dump_labels.py:115. The indentation is positive. -/
def dumpText (jenv : JEnv) : DumpOut → Option Str
  | .old => none
  | .empty => some []
  | .json none j => some (dumps jenv j)
  | .json (some i) j => some (dumpsIn jenv i.toNat 0 j)

/-- `graph`: `generate_graph` with the bytes of its input, graph.py:28-71. -/
def graphOf (jenv : JEnv) (b : Bytes) : Option (List Subgraph) := (loads jenv b).bind generateGraph

end CBus.Cbz
