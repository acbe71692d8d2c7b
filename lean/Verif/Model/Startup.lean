import Verif.Model.Main

/-! # The start of the daemon in a world in which things fail

`Daemon.main` lists what `_main` (cmqttd.py:421-469) does if nothing fails. Here each
step is carried out: devices, hosts, files and brokers may not be there, and certificates
may not be good. The steps are calls of libraries; what is assumed of them is

* pyserial-asyncio 0.4 `create_serial_connection` and asyncio `create_connection`: they
  return or raise;
* paho-mqtt 1.5.0 `Client.tls_set`: `load_cert_chain(certfile, keyfile)` if there is a
  `certfile`, `verify_mode = CERT_REQUIRED`, `load_verify_locations(ca_certs)` if there is
  a `ca_certs` and `load_default_certs()` otherwise, and host names are checked;
* paho-mqtt 1.5.0 `Client.connect`: it refuses an empty host, a port that is not positive
  and a negative keepalive (`ValueError`), connects a socket, for which it uses the
  keepalive as a timeout, and, after `tls_set`, has a TLS handshake, which fails unless the
  certificate of the server is good; then it packs the keepalive in 16 bits;
* CPython 3.8 `ssl`: the first argument of `load_verify_locations` is a file with
  certificates. `ssl.SSLError` is an `OSError`, like all errors that come from files and
  sockets. -/

namespace CBus.Daemon
variable {α : Type}

/-- What is at a path. -/
inductive Node
  | file (content : Bytes)
  | dir (entries : List (Str × Bytes))
  deriving DecidableEq, Repr

/-- A server: who issued its certificate (`none`: it does not speak TLS), and for which names. -/
structure Peer (α : Type) where
  issuer : Option α
  names : List Str

/-- The world outside. `α` are the certification authorities. -/
structure World (α : Type) where
  /-- `create_serial_connection` with a device. -/
  serial : Str → Py Unit
  /-- `create_connection` with a host and a port. -/
  tcp : Str → Int → Py Unit
  disk : Str → Option Node
  /-- The certificates in a PEM file. -/
  pem : Bytes → List α
  /-- A certificate and its key. -/
  pair : Bytes → Bytes → Bool
  /-- The CA store of Python. -/
  store : List α
  /-- The server at an address and a port that is reached in a time. -/
  server : Str → Int → Int → Option (Peer α)

/-- An `SSLContext`: the authorities that are trusted, and the client's own certificate and key. -/
structure TlsContext (α : Type) where
  trusted : List α
  identity : Option (Bytes × Bytes)

/-- The attributes of `MqttClient` that the start sets. -/
structure Session (α : Type) where
  credentials : Option (Str × Str) := none
  context : Option (TlsContext α) := none

/-- `open(path, 'rb').read()`. -/
def readFile (w : World α) (path : Str) : Py Bytes :=
  match w.disk path with
  | some (.file content) => .ok content
  | _ => .error .ioError

/-- `SSLContext.load_verify_locations(path)`. -/
def loadAuthorities (w : World α) (path : Str) : Py (List α) :=
  match readFile w path with
  | .error e => .error e
  | .ok content =>
    match w.pem content with
    | [] => .error .ioError
    | l => .ok l

/-- `SSLContext.load_cert_chain(certfile, keyfile)`. Without a key file the key is in the first. -/
def loadIdentity (w : World α) (certfile : Str) (keyfile : Option Str) : Py (Bytes × Bytes) :=
  match readFile w certfile with
  | .error e => .error e
  | .ok cert =>
    match readFile w (keyfile.getD certfile) with
    | .error e => .error e
    | .ok key => if w.pair cert key then .ok (cert, key) else .error .ioError

/-- `Client.tls_set(ca_certs, certfile, keyfile)`, called by cmqttd.py:457-463. -/
def tlsSet (w : World α) (ca certfile keyfile : Option Str) : Py (TlsContext α) :=
  let identity : Py (Option (Bytes × Bytes)) :=
    match certfile with
    | none => .ok none
    | some c => (loadIdentity w c keyfile).map some
  match identity with
  | .error e => .error e
  | .ok identity =>
    match ca with
    | none => .ok ⟨w.store, identity⟩
    | some path =>
      match loadAuthorities w path with
      | .error e => .error e
      | .ok l => .ok ⟨l, identity⟩

/-- The TLS handshake with a server, if there is a context. -/
def handshake [DecidableEq α] (m : Session α) (address : Str) (peer : Peer α) : Bool :=
  match m.context with
  | none => true
  | some c =>
    match peer.issuer with
    | none => false
    | some i => decide (i ∈ c.trusted ∧ address ∈ peer.names)

/-- `Client.connect(address, port, keepalive)`, called by cmqttd.py:467. -/
def brokerConnect [DecidableEq α] (w : World α) (m : Session α) (address : Str) (port keepalive : Int) : Py Unit :=
  if address = [] ∨ port ≤ 0 ∨ keepalive < 0 then .error .valueError
  else
    match w.server address port keepalive with
    | none => .error .ioError
    | some peer =>
      if handshake m address peer then
        if keepalive ≤ 65535 then .ok () else .error .structError
      else .error .ioError

/-- One step of `_main`, cmqttd.py:442-467. -/
def perform [DecidableEq α] (w : World α) (m : Session α) : Act → Py (Session α)
  | .openSerial d => (w.serial d).map fun _ => m
  | .openTcp host port => (w.tcp host port).map fun _ => m
  | .credentials user pass => .ok { m with credentials := some (user, pass) }
  | .tls ca cert key => (tlsSet w ca cert key).map fun c => { m with context := some c }
  | .connectBroker a p k => (brokerConnect w m a p k).map fun _ => m

/-- Step after step, until one raises: the steps that were carried out, and the client or
the exception. -/
def performAll [DecidableEq α] (w : World α) : Session α → List Act → List Act × Py (Session α)
  | m, [] => ([], .ok m)
  | m, a :: as =>
    match perform w m a with
    | .error e => ([], .error e)
    | .ok m' => (a :: (performAll w m' as).1, (performAll w m' as).2)

/-- How it ends: as without failures, with the exception of a step, or the daemon runs. -/
inductive StartEnd (α : Type)
  | ended (e : End)
  | failed (e : PyErr)
  | running (h : Handler) (m : Session α)

/-- `_main` in a world, cmqttd.py:421-469. -/
def startup [DecidableEq α] (w : World α) (env : Cbz.Env) (o : Options) : List Act × StartEnd α :=
  match main env o with
  | (acts, .running h) =>
    match performAll w {} acts with
    | (done, .ok m) => (done, .running h m)
    | (done, .error e) => (done, .failed e)
  | (acts, e) => (acts, .ended e)

/-- The protocol object that `factory` makes, before it is connected: cmqttd.py:433-440, 92-95,
pciprotocol.py:69-84. -/
def Handler.client (h : Handler) : Client := { timesync := h.timesync, handleClock := h.clock, future := .pending }

end CBus.Daemon
