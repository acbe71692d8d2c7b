import Verif.Model.Main
import Verif.Model.ArgParse

/-! # The command line of the daemon

The options that `_main` of `/repo/cbus/daemon/cmqttd.py` declares (cmqttd.py:310-417),
as `ArgumentParser.parse_args` of Python 3.8 reads them (`Model/ArgParse.lean`), and the
two groups that are required. Messages are not modelled, only whether there is a result. -/

namespace CBus.Args
open CBus.Cbz CBus.Daemon

/-- What an option sets. -/
inductive Dest
  | help | log | verbosity | brokerAddress | brokerPort | keepalive | disableTls | auth | ca
  | clientCert | clientKey | serial | tcp | timesync | noClock | project
  deriving DecidableEq, Repr

/-- cmqttd.py:313-417 (and `-h`, which `ArgumentParser` adds). -/
def optionStrings : List (Str × Dest) :=
  [("-h".toList, .help), ("--help".toList, .help),
   ("-l".toList, .log), ("--log-file".toList, .log),
   ("-v".toList, .verbosity), ("--verbosity".toList, .verbosity),
   ("-b".toList, .brokerAddress), ("--broker-address".toList, .brokerAddress),
   ("-p".toList, .brokerPort), ("--broker-port".toList, .brokerPort),
   ("--broker-keepalive".toList, .keepalive),
   ("--broker-disable-tls".toList, .disableTls),
   ("-A".toList, .auth), ("--broker-auth".toList, .auth),
   ("-c".toList, .ca), ("--broker-ca".toList, .ca),
   ("-k".toList, .clientCert), ("--broker-client-cert".toList, .clientCert),
   ("-K".toList, .clientKey), ("--broker-client-key".toList, .clientKey),
   ("-s".toList, .serial), ("--serial".toList, .serial),
   ("-t".toList, .tcp), ("--tcp".toList, .tcp),
   ("-T".toList, .timesync), ("--timesync".toList, .timesync),
   ("-C".toList, .noClock), ("--no-clock".toList, .noClock),
   ("-P".toList, .project), ("--project-file".toList, .project)]

/-- `action='store_true'` and `-h` take no argument; all others take one. -/
def Dest.isFlag : Dest → Bool
  | .help | .disableTls | .noClock => true
  | _ => false

/-- The choices of `--verbosity`, cmqttd.py:321-322. -/
def verbosities : List Str :=
  ["CRITICAL".toList, "ERROR".toList, "WARNING".toList, "INFO".toList, "DEBUG".toList]

/-- The words of a command line. -/
abbrev Word := ArgParse.Word Dest

/-- How a word is read. -/
abbrev classify (u : UniTable) (w : Str) : Option Word := ArgParse.classify optionStrings u w

/-- How all the words are read. -/
abbrev classifyAll (u : UniTable) (ws : List Str) : Option (List (Str × Word)) := ArgParse.classifyAll optionStrings u ws

/-- Short options that are run together. -/
abbrev unchain (d : Dest) (short : Bool) (e : Option Str) : Option (List Dest × Dest × Option Str) :=
  ArgParse.unchain optionStrings Dest.isFlag d short e

/-- The files that options name, by their contents; `none` if one cannot be opened.
`-` is the standard input. -/
structure Files where
  text : Str → Option Str
  binary : Str → Option OpenFile

/-- The namespace that is filled in, and whether there were words that were not
recognised. -/
structure Parsed where
  brokerAddress : Option Str := none
  brokerPort : Int := 0
  keepalive : Int := 60
  disableTls : Bool := false
  auth : Option Str := none
  ca : Option Str := none
  clientCert : Option Str := none
  clientKey : Option Str := none
  serial : Option Str := none
  tcp : Option Str := none
  timesync : Int := 300
  noClock : Bool := false
  project : Option OpenFile := none
  extras : Bool := false

/-- Why there is no result: `--help`, or an error; or because the value of an option is an
empty list where a text is expected, which is what comes of an argument `--` in the same
word as its option (`--tcp=--`) and is not followed any further. -/
inductive Stop
  | help | usage | emptyList
  deriving DecidableEq, Repr

/-- An option without an argument. -/
def setFlag (d : Dest) (p : Parsed) : Except Stop Parsed :=
  match d with
  | .help => .error .help
  | .disableTls => .ok { p with disableTls := true }
  | .noClock => .ok { p with noClock := true }
  | _ => .ok p

/-- An option that is given as a number. -/
def setInt (u : UniTable) (v : Str) (f : Int → Parsed) : Except Stop Parsed :=
  match u.intOf v with
  | .ok i => .ok (f i)
  | .error _ => .error .usage

/-- An option with its argument. `--serial` and `--tcp` exclude each other. -/
def setValue (env : Env) (files : Files) (d : Dest) (v : Str) (p : Parsed) : Except Stop Parsed :=
  match d with
  | .verbosity => if v ∈ verbosities then .ok p else .error .usage
  | .brokerAddress => .ok { p with brokerAddress := some v }
  | .brokerPort => setInt env.uni v fun i => { p with brokerPort := i }
  | .keepalive => setInt env.uni v fun i => { p with keepalive := i }
  | .auth =>
    match files.text v with
    | some t => .ok { p with auth := some t }
    | none => .error .usage
  | .ca => .ok { p with ca := some v }
  | .clientCert => .ok { p with clientCert := some v }
  | .clientKey => .ok { p with clientKey := some v }
  | .serial => if p.tcp.isSome then .error .usage else .ok { p with serial := some v }
  | .tcp => if p.serial.isSome then .error .usage else .ok { p with tcp := some v }
  | .timesync => setInt env.uni v fun i => { p with timesync := i }
  | .project =>
    match files.binary v with
    | some f => .ok { p with project := some f }
    | none => .error .usage
  | _ => .ok p

/-- Options without arguments, in order. -/
def setFlags : List Dest → Parsed → Except Stop Parsed
  | [], p => .ok p
  | d :: ds, p => setFlag d p >>= setFlags ds

/-- `ArgumentParser._parse_known_args`: options with their arguments, in order. -/
def consume (env : Env) (files : Files) : List (Str × Word) → Parsed → Except Stop Parsed
  | [], p => .ok p
  | (_, .opt d short e) :: rest, p =>
    match unchain d short e with
    | none => .error .usage
    | some (fs, l, some v) =>
      if v = "--".toList then setFlags fs p >>= fun _ => .error .emptyList
      else setFlags fs p >>= setValue env files l v >>= consume env files rest
    | some (fs, l, none) =>
      if l.isFlag then setFlags fs p >>= setFlag l >>= consume env files rest
      else
        match rest with
        | (v, .arg) :: rest' => setFlags fs p >>= setValue env files l v >>= consume env files rest'
        | _ => .error .usage
  | (_, _) :: rest, p => consume env files rest { p with extras := true }

/-- What is required, and no words left over. -/
def finish (p : Parsed) : Except Stop Daemon.Options :=
  match p.brokerAddress with
  | none => .error .usage
  | some a =>
    if p.serial = none ∧ p.tcp = none then .error .usage
    else if p.extras then .error .usage
    else .ok {
      brokerAddress := a, brokerPort := p.brokerPort, keepalive := p.keepalive, disableTls := p.disableTls,
      auth := p.auth, ca := p.ca, clientCert := p.clientCert, clientKey := p.clientKey, serial := p.serial,
      tcp := p.tcp, timesync := p.timesync, noClock := p.noClock, project := p.project }

/-- `option = parser.parse_args()`, cmqttd.py:419. -/
def parse (env : Env) (files : Files) (argv : List Str) : Except Stop Daemon.Options :=
  match classifyAll env.uni argv with
  | none => .error .usage
  | some ws => consume env files ws {} >>= finish

end CBus.Args
