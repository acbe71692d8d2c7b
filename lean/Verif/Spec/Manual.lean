import Verif.Model.Args
import Verif.Model.Commands
import Verif.Model.OptParse

/-! # The options of the programs, as their help texts list them

One line for every option: its letter if it has one, its word, what it is for and whether an
argument follows. The tables that the parsers work with are not used. -/

namespace CBus.Spec
open CBus

/-- One line of a help text. -/
structure Entry (δ : Type) where
  letter : Option Char
  word : String
  what : δ
  arg : Bool

variable {δ : Type} [DecidableEq δ]

/-- All that may be written for the options. -/
def names (m : List (Entry δ)) : List (Str × δ) :=
  m.flatMap fun e => (e.letter.map fun c => (['-', c], e.what)).toList ++ [('-' :: '-' :: e.word.toList, e.what)]

/-- The options without an argument. -/
def flags (m : List (Entry δ)) (d : δ) : Bool := m.any fun e => e.what = d && !e.arg

/-- The same for the other parser, which keeps letters and words apart. -/
def asTable (m : List (Entry δ)) : OptParse.Table δ where
  long := m.map fun e => ('-' :: '-' :: e.word.toList, e.what)
  short := m.flatMap fun e => (e.letter.map fun c => (c, e.what)).toList
  takes d := !flags m d

def daemonManual : List (Entry Args.Dest) :=
  [⟨some 'h', "help", .help, false⟩,
   ⟨some 'l', "log-file", .log, true⟩,
   ⟨some 'v', "verbosity", .verbosity, true⟩,
   ⟨some 'b', "broker-address", .brokerAddress, true⟩,
   ⟨some 'p', "broker-port", .brokerPort, true⟩,
   ⟨none, "broker-keepalive", .keepalive, true⟩,
   ⟨none, "broker-disable-tls", .disableTls, false⟩,
   ⟨some 'A', "broker-auth", .auth, true⟩,
   ⟨some 'c', "broker-ca", .ca, true⟩,
   ⟨some 'k', "broker-client-cert", .clientCert, true⟩,
   ⟨some 'K', "broker-client-key", .clientKey, true⟩,
   ⟨some 's', "serial", .serial, true⟩,
   ⟨some 't', "tcp", .tcp, true⟩,
   ⟨some 'T', "timesync", .timesync, true⟩,
   ⟨some 'C', "no-clock", .noClock, false⟩,
   ⟨some 'P', "project-file", .project, true⟩]

/-- What `--verbosity` may say. -/
def levels : List Str := ["CRITICAL", "ERROR", "WARNING", "INFO", "DEBUG"].map String.toList

def dumpManual : List (Entry Commands.DumpOpt) :=
  [⟨some 'h', "help", .help, false⟩,
   ⟨some 'o', "output", .output, true⟩,
   ⟨some 'p', "pretty", .pretty, true⟩]

def graphManual : List (Entry Commands.GraphOpt) :=
  [⟨some 'h', "help", .help, false⟩,
   ⟨some 'o', "output", .output, true⟩]

def decodeManual : List (Entry Commands.DecodeOpt) :=
  [⟨some 'h', "help", .help, false⟩,
   ⟨some 'C', "no-checksum", .noChecksum, false⟩,
   ⟨some 'S', "not-strict", .notStrict, false⟩,
   ⟨some 'c', "client", .client, false⟩]

def helpManual : List (Entry Unit) := [⟨some 'h', "help", (), false⟩]

def pciManual : List (Entry Commands.PciOpt) :=
  [⟨some 'h', "help", .help, false⟩,
   ⟨some 's', "serial", .serial, true⟩,
   ⟨some 't', "tcp", .tcp, true⟩]

def redirectManual : List (Entry Redirect.Opt) :=
  [⟨some 'h', "help", .help, false⟩,
   ⟨some 'q', "quiet", .quiet, false⟩,
   ⟨none, "spy", .spy, false⟩,
   ⟨some 'p', "port", .port, true⟩,
   ⟨some 'b', "baud", .baud, true⟩,
   ⟨none, "parity", .parity, true⟩,
   ⟨none, "rtscts", .rtscts, false⟩,
   ⟨none, "xonxoff", .xonxoff, false⟩,
   ⟨none, "rts", .rts, true⟩,
   ⟨none, "dtr", .dtr, true⟩,
   ⟨some 'P', "localport", .localport, true⟩,
   ⟨some 'c', "convert", .convert, false⟩,
   ⟨none, "net-nl", .netNl, true⟩,
   ⟨none, "ser-nl", .serNl, true⟩]

end CBus.Spec
