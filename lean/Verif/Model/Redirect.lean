import Verif.Model.Text

/-! # The serial redirector

`scripts/tcp_serial_redirect.py`, which makes a network interface out of a serial one
(docs/hacking.rst). It is written for Python 2, where texts are bytes. The command
line, the spy, the main program and exceptions of the serial port are in `OptParse`. -/

namespace CBus.Redirect

/-- `s.split(sep)`, tcp_serial_redirect.py:80, 111. -/
def splitBy (sep s : Bytes) : List Bytes :=
  match h : find sep s with
  | none => [s]
  | some i => if sep = [] then [s] else s.take i :: splitBy sep (s.drop (i + sep.length))
termination_by s.length
decreasing_by
  rename_i hne
  cases s with
  | nil =>
    cases sep with
    | nil => exact absurd rfl hne
    | cons a as => simp [find] at h
  | cons x xs =>
    cases sep with
    | nil => exact absurd rfl hne
    | cons a as => simp; omega

/-- `new.join(data.split(old))`, tcp_serial_redirect.py:80, 111. -/
def convert (old new data : Bytes) : Bytes := new.intercalate (splitBy old data)

/-- The members of `Redirector` that are used here, tcp_serial_redirect.py:46-52. `none` is
`None`; a newline is never empty. -/
structure Redirector where
  serNewline : Option Bytes
  netNewline : Option Bytes
  deriving DecidableEq, Repr

/-- tcp_serial_redirect.py:77-80. -/
def toNetwork (r : Redirector) (data : Bytes) : Bytes :=
  match r.serNewline, r.netNewline with
  | some s, some n => convert s n data
  | _, _ => data

/-- tcp_serial_redirect.py:108-111. -/
def toSerial (r : Redirector) (data : Bytes) : Bytes :=
  match r.serNewline, r.netNewline with
  | some s, some n => convert n s data
  | _, _ => data

/-- The two loops. Each flag is whether the loop is inside its body, waiting for data; `alive`
is `self.alive`. -/
structure Loops where
  alive : Bool
  reader : Bool
  writer : Bool
  deriving DecidableEq, Repr

/-- `shortcut`, tcp_serial_redirect.py:54-62. -/
def Loops.start : Loops := ⟨true, true, true⟩

/-- What happens to a loop that waits: the serial port yields what `read(1)` and then
`read(inWaiting())` return, and sending it fails or not; or the network yields data, or
nothing because it was closed, or an error (`none`). -/
inductive Step
  | serial (first rest : Bytes) (sent : Bool)
  | network (data : Option Bytes)
  deriving DecidableEq, Repr

/-- What is sent. -/
inductive Eff
  | toNetwork (data : Bytes)
  | toSerial (data : Bytes)
  deriving DecidableEq, Repr

/-- One turn of `reader`, tcp_serial_redirect.py:64-91, or of `writer`,
tcp_serial_redirect.py:101-122. A loop that has ended does nothing. -/
def step (r : Redirector) (l : Loops) : Step → Loops × List Eff
  | .serial first rest sent =>
    if !l.reader then (l, [])
    else if first ++ rest = [] then ({ l with reader := l.alive }, [])
    else if sent then ({ l with reader := l.alive }, [.toNetwork (toNetwork r (first ++ rest))])
    else ({ l with reader := false, alive := false }, [])
  | .network data =>
    if !l.writer then (l, [])
    else match data with
      | none | some [] => ({ l with writer := false, alive := false }, [])
      | some d => ({ l with writer := l.alive, alive := l.alive }, [.toSerial (toSerial r d)])

/-- All that happens, in order. -/
def run (r : Redirector) : Loops → List Step → Loops × List Eff
  | l, [] => (l, [])
  | l, s :: ss => ((run r (step r l s).1 ss).1, (step r l s).2 ++ (run r (step r l s).1 ss).2)

/-- `shortcut` returns, and the connection is closed, once both loops have ended
(tcp_serial_redirect.py:62, 121-122, 343). -/
def Loops.done (l : Loops) : Bool := !l.reader && !l.writer

/-! ## The options -/

/-- tcp_serial_redirect.py:277-297: the newline of a name; `none` if it is refused. -/
def newline (mode : Str) : Option Bytes :=
  let m := mode.map asciiUpper
  if m = "CR".toList then some [13]
  else if m = "LF".toList then some [10]
  else if m = "CR+LF".toList ∨ m = "CRLF".toList then some [13, 10]
  else none

/-- The options that are used here, with their defaults, tcp_serial_redirect.py:165-255. -/
structure Options where
  port : Option Str := none
  baudrate : Int := 9600
  convert : Bool := false
  netNewline : Str := "LF".toList
  serNewline : Str := "CR+LF".toList

/-- What is opened: `none` is port number 0. -/
structure Setup where
  port : Option Str
  baudrate : Int
  redirector : Redirector
  deriving DecidableEq, Repr

/-- tcp_serial_redirect.py:257-297, 333-339. `int` is `int(text)`. `none` if the command
line is refused. -/
def setup (int : Str → Option Int) (o : Options) (args : List Str) : Option Setup :=
  let newlines : Option Redirector :=
    match newline o.netNewline, newline o.serNewline with
    | some n, some s => some (if o.convert then ⟨some s, some n⟩ else ⟨none, none⟩)
    | _, _ => none
  match args with
  | [] => newlines.map fun r => ⟨o.port, o.baudrate, r⟩
  | port :: args =>
    if o.port.isSome then none
    else
      match args with
      | [] => newlines.map fun r => ⟨some port, o.baudrate, r⟩
      | [b] =>
        match int b with
        | some i => newlines.map fun r => ⟨some port, i, r⟩
        | none => none
      | _ => none

end CBus.Redirect
