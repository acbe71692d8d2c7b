import Verif.Model.Redirect
import Verif.Model.Commands

/-! # The command line and the main program of the serial redirector

`scripts/tcp_serial_redirect.py` again: how `optparse` of Python 2.7 reads the words, what is
set up, what the spy shows, and how connections are served one after another. An option of
type `int` is read by an arbitrary function. What `serial.Serial` makes of its settings is not
modelled, nor are the texts of messages. -/

namespace CBus.OptParse

/-- The option strings of a parser, with their dashes (`_long_opt`), and its letters
(`_short_opt`). -/
structure Table (δ : Type) where
  long : List (Str × δ)
  short : List (Char × δ)
  takes : δ → Bool

variable {δ : Type}

/-- `_match_abbrev`, optparse of Python 2.7; used by tcp_serial_redirect.py:257. -/
def matchLong (t : Table δ) (s : Str) : Option δ :=
  match t.long.lookup s with
  | some d => some d
  | none =>
    match t.long.filter fun x => s.isPrefixOf x.1 with
    | [x] => some x.2
    | _ => none

/-- What a word of options leaves behind: an error, nothing, or an option whose argument is
the next word. -/
inductive Next (δ : Type)
  | bad
  | done
  | pending (d : δ)

/-- `_process_short_opts`, optparse of Python 2.7; used by tcp_serial_redirect.py:257. -/
def shortOpts (t : Table δ) : Str → List (δ × Str) × Next δ
  | [] => ([], .done)
  | c :: cs =>
    match t.short.lookup c with
    | none => ([], .bad)
    | some d =>
      if t.takes d then
        if cs = [] then ([], .pending d) else ([(d, cs)], .done)
      else ((d, []) :: (shortOpts t cs).1, (shortOpts t cs).2)

/-- `_process_long_opt`, optparse of Python 2.7; used by tcp_serial_redirect.py:257. -/
def longOpt (t : Table δ) (w : Str) : List (δ × Str) × Next δ :=
  match matchLong t (w.takeWhile (· ≠ '=')) with
  | none => ([], .bad)
  | some d =>
    match w.dropWhile (· ≠ '=') with
    | [] => if t.takes d then ([], .pending d) else ([(d, [])], .done)
    | _ :: v => if t.takes d then ([(d, v)], .done) else ([], .bad)

/-- `_process_args`, optparse of Python 2.7; used by tcp_serial_redirect.py:257: the options in
front of the first error, and the arguments if there is no error. An option that waits for
its argument takes the next word, whatever it is. -/
def read (t : Table δ) : Option δ → List Str → List (δ × Str) × Option (List Str)
  | none, [] => ([], some [])
  | some _, [] => ([], none)
  | some d, w :: ws => ((d, w) :: (read t none ws).1, (read t none ws).2)
  | none, w :: ws =>
    if w = "--".toList then ([], some ws)
    else if w.head? = some '-' ∧ w.length > 1 then
      let o := if "--".toList.isPrefixOf w then longOpt t w else shortOpts t w.tail
      match o.2 with
      | .bad => (o.1, none)
      | .done => (o.1 ++ (read t none ws).1, (read t none ws).2)
      | .pending d => (o.1 ++ (read t (some d) ws).1, (read t (some d) ws).2)
    else ((read t none ws).1, (read t none ws).2.map (w :: ·))

end CBus.OptParse

namespace CBus.Redirect
open CBus.OptParse (Table)
open CBus.Commands (given last)

/-- tcp_serial_redirect.py:134-255. -/
inductive Opt
  | help | quiet | spy | port | baud | parity | rtscts | xonxoff | rts | dtr | localport | convert | netNl | serNl
  deriving DecidableEq, Repr

/-- tcp_serial_redirect.py:134-255. -/
def Opt.takes : Opt → Bool
  | .port | .baud | .parity | .rts | .dtr | .localport | .netNl | .serNl => true
  | .help | .quiet | .spy | .rtscts | .xonxoff | .convert => false

/-- Options with `type = 'int'`, tcp_serial_redirect.py:174, 203, 211, 225. -/
def Opt.isInt : Opt → Bool
  | .baud | .rts | .dtr | .localport => true
  | _ => false

/-- tcp_serial_redirect.py:134-255, and `--help`, which every parser has. -/
def optTable : Table Opt where
  long := [("--help".toList, .help), ("--quiet".toList, .quiet), ("--spy".toList, .spy), ("--port".toList, .port),
    ("--baud".toList, .baud), ("--parity".toList, .parity), ("--rtscts".toList, .rtscts),
    ("--xonxoff".toList, .xonxoff), ("--rts".toList, .rts), ("--dtr".toList, .dtr),
    ("--localport".toList, .localport), ("--convert".toList, .convert), ("--net-nl".toList, .netNl),
    ("--ser-nl".toList, .serNl)]
  short := [('h', .help), ('q', .quiet), ('p', .port), ('b', .baud), ('P', .localport), ('c', .convert)]
  takes := Opt.takes

/-- What the program is told: the serial port and its settings, what goes on where. `none` as
the port is number 0. -/
structure Config where
  setup : Setup
  quiet : Bool
  spy : Bool
  parity : Str
  rtscts : Bool
  xonxoff : Bool
  rts : Option Int
  dtr : Option Int
  localPort : Int
  deriving DecidableEq, Repr

/-- How reading the command line ends: with the help and code 0, with a usage message and
code 2, or not at all. -/
inductive Parsed
  | helped
  | usage
  | config (c : Config)
  deriving DecidableEq, Repr

/-- `Option.process` for one option after another: the help and an argument that is no number
end the program at once. -/
def process (num : Str → Option Int) : List (Opt × Str) → Option Parsed
  | [] => none
  | (d, v) :: is =>
    if d = .help then some .helped
    else if d.isInt && (num v).isNone then some .usage
    else process num is

/-- The last argument of an option of type `int`. -/
def lastInt (num : Str → Option Int) (d : Opt) (is : List (Opt × Str)) : Option Int := (last d is).bind num

/-- The options of which port, speed and newlines are made, tcp_serial_redirect.py:165-177, 236-255. -/
def optionsOf (num : Str → Option Int) (is : List (Opt × Str)) : Options where
  port := last .port is
  baudrate := (lastInt num .baud is).getD 9600
  convert := given .convert is
  netNewline := (last .netNl is).getD "LF".toList
  serNewline := (last .serNl is).getD "CR+LF".toList

/-- The other options, tcp_serial_redirect.py:145-157, 179-228. -/
def configOf (num : Str → Option Int) (is : List (Opt × Str)) (s : Setup) : Config where
  setup := s
  quiet := given .quiet is
  spy := given .spy is
  parity := (last .parity is).getD ['N']
  rtscts := given .rtscts is
  xonxoff := given .xonxoff is
  rts := lastInt num .rts is
  dtr := lastInt num .dtr is
  localPort := (lastInt num .localport is).getD 7777

/-- tcp_serial_redirect.py:257-306, 318-326, 333-339. `num` reads an option of type `int`,
`int` is `int(text)`. -/
def parse (num int : Str → Option Int) (words : List Str) : Parsed :=
  match OptParse.read optTable none words with
  | (is, args) =>
    match process num is with
    | some p => p
    | none =>
      match args with
      | none => .usage
      | some args =>
        match setup int (optionsOf num is) args with
        | none => .usage
        | some s => .config (configOf num is s)

/-! ## The spy -/

/-- A digit of `\xhh`. -/
def lowDigit (n : UInt8) : UInt8 := if n < 10 then 48 + n else 87 + n

/-- `codecs.escape_encode` of Python 2 for one byte, tcp_serial_redirect.py:75, 115. -/
def escapeByte (b : UInt8) : Bytes :=
  if b = 39 ∨ b = 92 then [92, b]
  else if b = 9 then [92, 116]
  else if b = 10 then [92, 110]
  else if b = 13 then [92, 114]
  else if b < 32 ∨ 127 ≤ b then [92, 120, lowDigit (b / 16), lowDigit (b % 16)]
  else [b]

/-- `codecs.escape_encode(data)[0]`, tcp_serial_redirect.py:75, 115. -/
def escape (data : Bytes) : Bytes := data.flatMap escapeByte

/-- What the spy shows in one turn, tcp_serial_redirect.py:74-76 (before converting newlines
and before sending) and 114-116 (after both). -/
def shown (r : Redirector) (l : Loops) : Step → Option Bytes
  | .serial first rest _ => if l.reader && (first ++ rest != []) then some (escape (first ++ rest)) else none
  | .network (some d) => if l.writer && d != [] then some (escape (toSerial r d)) else none
  | .network none => none

/-! ## The main program -/

/-- What is done. Connections are numbered as they come. -/
inductive Act
  | banner
  | openPort (port : Option Str) (baudrate : Int) (parity : Str) (rtscts xonxoff : Bool)
  | setRts (level : Int)
  | setDtr (level : Int)
  | listen (port : Int)
  | waiting
  | connected (n : Nat)
  | toNetwork (n : Nat) (data : Bytes)
  | toSerial (data : Bytes)
  | show (text : Bytes)
  | error
  | disconnected (n : Nat)
  | exit (code : Nat)
  deriving DecidableEq, Repr

/-- tcp_serial_redirect.py:299-329: up to the first wait for a connection. `opened` is whether
the serial port can be opened. -/
def startUp (c : Config) (opened : Bool) : List Act :=
  (if c.quiet then [] else [.banner]) ++
  .openPort c.setup.port c.setup.baudrate c.parity c.rtscts c.xonxoff ::
  if opened then
    (match c.rts with | some l => [Act.setRts l] | none => []) ++
    (match c.dtr with | some l => [Act.setDtr l] | none => []) ++
    [.listen c.localPort, .waiting]
  else [.exit 1]

/-- What can happen to the running program: a connection, or an error while waiting for one; a
turn of one of the two loops; the serial port fails when it is read (its thread ends
and nobody is told) or when data of the network are written to it (the program ends with that
exception, which nobody catches); Ctrl-C. -/
inductive Happens
  | accepted
  | acceptFails
  | turn (s : Step)
  | readFails
  | writeFails (data : Bytes)
  | interrupt
  deriving DecidableEq, Repr

/-- The running program: how many connections there have been, the loops of the one that is
being served, and whether the program still runs. -/
structure Main where
  count : Nat
  serving : Option Loops
  running : Bool
  deriving DecidableEq, Repr

/-- As the loop is entered. -/
def Main.start : Main := ⟨0, none, true⟩

/-- Messages of a turn that fails, tcp_serial_redirect.py:87-90, 117-120. -/
def failed (l : Loops) : Step → List Act
  | .serial first rest sent => if l.reader && (first ++ rest != []) && !sent then [.error] else []
  | .network none => if l.writer then [.error] else []
  | .network (some _) => []

/-- Effects of the loops as effects of the program. -/
def act (n : Nat) : Eff → Act
  | .toNetwork d => .toNetwork n d
  | .toSerial d => .toSerial d

/-- After a turn: once both loops have ended `shortcut` returns and the next connection is
waited for, tcp_serial_redirect.py:340-343, 327-330. -/
def settle (c : Config) (n : Nat) (l : Loops) : Main × List Act :=
  if l.done then (⟨n, none, true⟩, (if c.spy then [.show [10]] else []) ++ [.disconnected n, .waiting])
  else (⟨n, some l, true⟩, [])

/-- tcp_serial_redirect.py:327-349. While one connection is served nothing is accepted. The
reader shows before it sends, the writer writes before it shows. A loop that has ended
does nothing. Ctrl-C while waiting for the reader to end, which is within a second, is taken
to end the program at once. -/
def happen (c : Config) (m : Main) (h : Happens) : Main × List Act :=
  if !m.running then (m, [])
  else match h, m.serving with
    | .interrupt, _ => (⟨m.count, m.serving, false⟩, [.exit 0])
    | .accepted, none => (⟨m.count + 1, some .start, true⟩, [.connected (m.count + 1)])
    | .acceptFails, none => (m, [.error, .waiting])
    | .turn s, some l =>
      let spied := if c.spy then (shown c.setup.redirector l s).toList.map Act.show else []
      let l' := (step c.setup.redirector l s).1
      let es := (step c.setup.redirector l s).2.map (act m.count)
      let done := match s with
        | .serial .. => spied ++ es
        | .network _ => es ++ spied
      ((settle c m.count l').1, done ++ failed l s ++ (settle c m.count l').2)
    | .readFails, some l =>
      if l.reader then settle c m.count { l with reader := false } else (m, [])
    | .writeFails d, some l =>
      if l.writer && d != [] then (⟨m.count, m.serving, false⟩, [.exit 1]) else (m, [])
    | _, _ => (m, [])

/-- Everything that happens, in order. -/
def events (c : Config) : Main → List Happens → Main × List Act
  | m, [] => (m, [])
  | m, h :: hs => ((events c (happen c m h).1 hs).1, (happen c m h).2 ++ (events c (happen c m h).1 hs).2)

/-- The whole program, tcp_serial_redirect.py:131-349. -/
def program (num int : Str → Option Int) (words : List Str) (opened : Bool) (hs : List Happens) : List Act :=
  match parse num int words with
  | .helped => [.exit 0]
  | .usage => [.exit 2]
  | .config c => startUp c opened ++ if opened then (events c .start hs).2 else []

end CBus.Redirect
