import Verif.Model.Args

/-! # The entry point of the container

`/repo/entrypoint-cmqttd.sh`. It builds one text and lets the shell split it. -/

namespace CBus.Entry

/-- The environment of the script: its variables (`none` if not set), and which of
the files exist. -/
structure Environ where
  mqttServer : Option Str := none
  timesync : Option Str := none
  mqttPort : Option Str := none
  serialPort : Option Str := none
  cniAddr : Option Str := none
  clock : Option Str := none
  useTls : Option Str := none
  certificates : Bool := false
  clientCert : Bool := false
  clientKey : Bool := false
  auth : Bool := false
  project : Bool := false

/-- `${x:-y}`. -/
def orElse (x : Option Str) (y : Str) : Str :=
  match x with
  | some (c :: s) => c :: s
  | _ => y

/-- `${x}`. -/
def value (x : Option Str) : Str := x.getD []

/-- A space, a tab or a new line: the default of `IFS`. -/
def isIfs (c : Char) : Bool := c = ' ' || c = '\t' || c = '\n'

/-- Field splitting of an expansion without quotes. -/
def fieldsAux : Str → Str → List Str
  | acc, [] => if acc = [] then [] else [acc]
  | acc, c :: s =>
    if isIfs c then (if acc = [] then fieldsAux [] s else acc :: fieldsAux [] s)
    else fieldsAux (acc ++ [c]) s

/-- Field splitting of an expansion without quotes. -/
def fields (s : Str) : List Str := fieldsAux [] s

/-- Line 8. -/
def authPath : Str := "/etc/cmqttd/auth".toList
/-- Line 11. -/
def certificatesPath : Str := "/etc/cmqttd/certificates".toList
/-- Line 14. -/
def clientCertPath : Str := "/etc/cmqttd/client.pem".toList
/-- Line 17. -/
def clientKeyPath : Str := "/etc/cmqttd/client.key".toList
/-- Line 20. -/
def projectPath : Str := "/etc/cmqttd/project.cbz".toList

/-- The connection to the PCI, entrypoint-cmqttd.sh:30-39. -/
def portArgs (e : Environ) : Option Str :=
  if value e.serialPort ≠ [] then some (" --serial ".toList ++ value e.serialPort)
  else if value e.cniAddr ≠ [] then some (" --tcp ".toList ++ value e.cniAddr)
  else none

/-- TLS, entrypoint-cmqttd.sh:46-69. (`[` of the container's shell takes `==` for `=`.) -/
def tlsArgs (e : Environ) : Str :=
  if orElse e.useTls "1".toList = "1".toList then
    (if e.certificates then " --broker-ca ".toList ++ certificatesPath else []) ++
    (if e.clientCert && e.clientKey then
      " --broker-client-cert ".toList ++ clientCertPath ++ " --broker-client-key ".toList ++ clientKeyPath
     else [])
  else " --broker-disable-tls".toList

/-- `CMQTTD_ARGS` as it is at the end, entrypoint-cmqttd.sh:23-83; `none` if the script exits. -/
def argsText (e : Environ) : Option Str :=
  -- 23, `${MQTT_SERVER:?unset}`
  if value e.mqttServer = [] then none
  else
    match portArgs e with
    | none => none
    | some port =>
      some ("--broker-address ".toList ++ value e.mqttServer ++ " --timesync ".toList ++ orElse e.timesync "300".toList ++
        -- 26-28
        (if value e.mqttPort ≠ [] then " --broker-port ".toList ++ value e.mqttPort else []) ++
        port ++
        -- 41-44
        (if orElse e.clock "1".toList ≠ "1".toList then " --no-clock".toList else []) ++
        tlsArgs e ++
        -- 71-76
        (if e.auth then " --broker-auth ".toList ++ authPath else []) ++
        -- 78-83
        (if e.project then " --project-file ".toList ++ projectPath else []))

/-- Line 93: the words that `cmqttd` is started with. `glob` is the expansion of
file name patterns. -/
def run (glob : Str → List Str) (e : Environ) : Option (List Str) :=
  (argsText e).map fun s => (fields s).flatMap glob

end CBus.Entry
