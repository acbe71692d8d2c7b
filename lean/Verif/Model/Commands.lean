import Verif.Model.ArgParse
import Verif.Model.Main
import Verif.Model.Tools

/-! # The command lines of the tools

`main` of `cbus/toolkit/dump_labels.py`, `cbus/toolkit/graph.py`, `cbus/tools/decode_packet.py`,
`cbus/tools/fetch_protocol_docs.py`, `cbus/protocol/pciprotocol.py` and
`cbus/protocol/pciserverprotocol.py`: the options they declare, and what becomes of them.
`none` is a command line that is not acted on, because it is refused or asks for help. -/

namespace CBus.Commands
open CBus.ArgParse CBus.Cbz

variable {δ : Type} [DecidableEq δ]

/-- The last argument of an option. -/
def last (d : δ) (is : List (δ × Str)) : Option Str := ((is.filter (·.1 = d)).getLast?).map (·.2)

/-- Whether an option is given. -/
def given (d : δ) (is : List (δ × Str)) : Bool := is.any (·.1 = d)

/-! ## dump_labels -/

/-- dump_labels.py:33-44 (and `-h`, which `ArgumentParser` adds). -/
inductive DumpOpt
  | help | output | pretty
  deriving DecidableEq, Repr

/-- dump_labels.py:33-44. -/
def dumpOptions : List (Str × DumpOpt) :=
  [("-h".toList, .help), ("--help".toList, .help), ("-o".toList, .output), ("--output".toList, .output),
   ("-p".toList, .pretty), ("--pretty".toList, .pretty)]

/-- What is asked of the tool. -/
structure DumpArgs where
  input : Str
  output : Option Str
  pretty : Option Int
  deriving DecidableEq, Repr

/-- `type=int` of every `--pretty`; the last counts. -/
def lastInt (u : UniTable) : List Str → Option Int → Option (Option Int)
  | [], x => some x
  | s :: ss, _ =>
    match u.intOf s with
    | .ok i => lastInt u ss (some i)
    | .error _ => none

/-- `parser.parse_args()`, dump_labels.py:32-45. -/
def dumpArgs (u : UniTable) (argv : List Str) : Option DumpArgs :=
  match readArgs dumpOptions (· == .help) [true] u argv with
  | some (is, [some input]) =>
    if given .help is then none
    else (lastInt u ((is.filter (·.1 = .pretty)).map (·.2)) none).map fun p => ⟨input, last .output is, p⟩
  | _ => none

/-! ## graph -/

/-- graph.py:83-88. -/
inductive GraphOpt
  | help | output
  deriving DecidableEq, Repr

/-- graph.py:83-88. -/
def graphOptions : List (Str × GraphOpt) :=
  [("-h".toList, .help), ("--help".toList, .help), ("-o".toList, .output), ("--output".toList, .output)]

/-- `main`, graph.py:74-91: the input and the output file. `FileType('rb')` refuses a file
that cannot be opened; `-` is the standard input. -/
def graphArgs (u : UniTable) (canOpen : Str → Bool) (argv : List Str) : Option (Str × Str) :=
  match readArgs graphOptions (· == .help) [true] u argv with
  | some (is, [some input]) =>
    if given .help is || !(input = ['-'] || canOpen input) then none
    else (last .output is).map fun o => (input, o)
  | _ => none

/-! ## decode_packet -/

/-- decode_packet.py:41-64. -/
inductive DecodeOpt
  | help | noChecksum | notStrict | client
  deriving DecidableEq, Repr

/-- decode_packet.py:47-64. -/
def decodeOptions : List (Str × DecodeOpt) :=
  [("-h".toList, .help), ("--help".toList, .help), ("-C".toList, .noChecksum), ("--no-checksum".toList, .noChecksum),
   ("-S".toList, .notStrict), ("--not-strict".toList, .notStrict), ("-c".toList, .client), ("--client".toList, .client)]

/-- What is asked of the tool: `type=bytes` is applied to the packet afterwards. -/
structure DecodeArgs where
  packet : Str
  checksum : Bool
  strict : Bool
  server : Bool
  deriving DecidableEq, Repr

/-- `parser.parse_args()`, decode_packet.py:39-66. -/
def decodeArgs (u : UniTable) (argv : List Str) : Option DecodeArgs :=
  match readArgs decodeOptions (fun _ => true) [true] u argv with
  | some (is, [some packet]) =>
    if given .help is then none
    else some ⟨packet, !given .noChecksum is, !given .notStrict is, !given .client is⟩
  | _ => none

/-- `main`, decode_packet.py:38-69. -/
def decodeCommand (u : UniTable) (argv : List Str) : Tools.DecodeEnd :=
  match decodeArgs u argv with
  | none => .usage
  | some a => Tools.decodeMain a.packet a.checksum a.strict a.server

/-! ## fetch_protocol_docs -/

/-- The only option is the one that `ArgumentParser` adds. -/
def helpOnly : List (Str × Unit) := [("-h".toList, ()), ("--help".toList, ())]

/-- `main`, fetch_protocol_docs.py:114-125: the destination. -/
def fetchArgs (u : UniTable) (argv : List Str) : Option Str :=
  match readArgs helpOnly (fun _ => true) [true] u argv with
  | some ([], [some destination]) => some destination
  | _ => none

/-! ## pciprotocol -/

/-- pciprotocol.py:595-606. -/
inductive PciOpt
  | help | serial | tcp
  deriving DecidableEq, Repr

/-- pciprotocol.py:595-606. -/
def pciOptions : List (Str × PciOpt) :=
  [("-h".toList, .help), ("--help".toList, .help), ("-s".toList, .serial), ("--serial".toList, .serial),
   ("-t".toList, .tcp), ("--tcp".toList, .tcp)]

/-- `parser.parse_args()`, pciprotocol.py:591-608: exactly one of the options. -/
def pciArgs (u : UniTable) (argv : List Str) : Option (Option Str × Option Str) :=
  match readArgs pciOptions (· == .help) [] u argv with
  | some (is, _) =>
    if given .help is || given .serial is == given .tcp is then none
    else some (last .serial is, last .tcp is)
  | none => none

/-- What is connected to. -/
inductive PciEnd
  | usage | raised (e : PyErr) | serial (port : Str) | tcp (host : Str) (port : Int)
  /-- Nothing, and it is waited for without end. -/
  | nothing
  deriving DecidableEq, Repr

/-- `main`, pciprotocol.py:582-626. -/
def pciCommand (u : UniTable) (argv : List Str) : PciEnd :=
  match pciArgs u argv with
  | none => .usage
  | some (s, t) =>
    if Daemon.truthy s then .serial (s.getD [])
    else if Daemon.truthy t then
      match splitMax ':' 2 (t.getD []) with
      | [host, port] =>
        match u.intOf port with
        | .ok p => .tcp host p
        | .error e => .raised e
      | _ => .raised .valueError
    else .nothing

/-! ## pciserverprotocol -/

/-- pciserverprotocol.py:492-497: the address and the port that are listened on. -/
def serverArgs (u : UniTable) (argv : List Str) : Option (Str × Int) :=
  match readArgs helpOnly (fun _ => true) [false, false] u argv with
  | some ([], [address, port]) =>
    match port with
    | none => some (address.getD "127.0.0.1".toList, 10001)
    | some p =>
      match u.intOf p with
      | .ok i => some (address.getD "127.0.0.1".toList, i)
      | .error _ => none
  | _ => none

end CBus.Commands
