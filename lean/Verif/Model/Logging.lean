import Verif.Model.Main

/-! # Where the log goes

The three modules that set up Python's `logging`: `cbus/common.py:311` when it is imported,
`_main` of `cbus/daemon/cmqttd.py:425-427` and of `cbus/protocol/pciprotocol.py:610-612`, and
`cbus/protocol/pciserverprotocol.py:47-48`. Of `logging` itself: `basicConfig`, `setLevel`,
`getEffectiveLevel` and `callHandlers`, as its manual describes them. No logger has been disabled,
none but the root has a handler, and no handler has a level. The texts of the records are not
modelled. -/

namespace CBus
namespace Log

/-- The levels of cmqttd.py:319-320. -/
inductive Level
  | debug | info | warning | error | critical
  deriving DecidableEq, Repr

/-- The number of a level. -/
def Level.num : Level → Nat
  | .debug => 10 | .info => 20 | .warning => 30 | .error => 40 | .critical => 50

/-- Where a handler writes. -/
inductive Dest
  | stdout | stderr | file (path : Str)
  deriving DecidableEq, Repr

/-- The name of a logger, between its dots. The root is `[]`. -/
abbrev Name := List String

/-- The state of `logging`: the handlers of the root, its level (`WARNING` at first), and the level
of every other logger that has one. -/
structure State where
  handlers : List Dest := []
  root : Level := .warning
  levels : List (Name × Level) := []
  deriving DecidableEq, Repr

/-- `logging.basicConfig(level=level, filename=filename)`: it does nothing if the root has a
handler. The default stream is `sys.stderr`. -/
def State.basicConfig (level : Option Level) (filename : Option Str) (s : State) : State :=
  if s.handlers = [] then
    { s with
      handlers := [match filename with | some (c :: l) => .file (c :: l) | _ => .stderr]
      root := level.getD s.root }
  else s

/-- `logging.getLogger(name).setLevel(level)`. -/
def State.setLevel (name : Name) (level : Level) (s : State) : State :=
  match name with
  | [] => { s with root := level }
  | _ => { s with levels := (name, level) :: s.levels.filter (·.1 ≠ name) }

/-- The level of the logger or, if it has none, of the nearest logger above it. The fuel is the
length of the name. -/
def State.effective (s : State) : Nat → Name → Level
  | 0, _ => s.root
  | n + 1, name =>
    match s.levels.lookup name with
    | some l => l
    | none => s.effective n name.dropLast

/-- Where a record of a level goes that the logger of that name is told. -/
def State.emit (s : State) (name : Name) (level : Level) : List Dest :=
  if (s.effective name.length name).num ≤ level.num then s.handlers else []

/-- common.py:311, which every other module imports. -/
def imported : State := State.basicConfig none none {}

/-- cmqttd.py:425-427, with the options of cmqttd.py:312-321. -/
def daemon (log : Option Str) (verbosity : Level) : State :=
  (imported.setLevel ["cbus"] verbosity).basicConfig (some verbosity) log

/-- pciprotocol.py:610-612. -/
def pciMain : State := (imported.setLevel ["cbus"] .debug).basicConfig (some .debug) none

/-- pciserverprotocol.py:47-48. -/
def serverMain : State := imported.setLevel ["cbus", "protocol", "pciserverprotocol"] .debug

end Log
end CBus
