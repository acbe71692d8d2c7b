import Verif.Model.Entrypoint

/-! # The variables of the container

What `docker run -e NAME=VALUE` and the files of the container make of the environment
that `/repo/entrypoint-cmqttd.sh` sees. Docker itself is not modelled: of the variables of
the same name the last one counts. -/

namespace CBus.Entry

/-- `NAME=VALUE`. -/
def splitVar (s : Str) : Option (Str × Str) :=
  match s.dropWhile (· ≠ '=') with
  | [] => none
  | _ :: v => some (s.takeWhile (· ≠ '='), v)

/-- A variable of the container. -/
def dockerVar (settings : List Str) (name : Str) : Option Str :=
  (settings.reverse.filterMap splitVar).lookup name

/-- What is at a path: a directory or something else. -/
inductive PathKind
  | dir | file
  deriving DecidableEq, Repr

/-- The environment of the script. -/
def ofVars (var : Str → Option Str) (path : Str → Option PathKind) : Environ where
  -- 23
  mqttServer := var "MQTT_SERVER".toList
  timesync := var "CBUS_TIMESYNC".toList
  -- 26
  mqttPort := var "MQTT_PORT".toList
  -- 30, 33
  serialPort := var "SERIAL_PORT".toList
  cniAddr := var "CNI_ADDR".toList
  -- 41
  clock := var "CBUS_CLOCK".toList
  -- 46
  useTls := var "MQTT_USE_TLS".toList
  -- 50, `[ -d ]`
  certificates := path certificatesPath = some .dir
  -- 58, 71, 78, `[ -e ]`
  clientCert := (path clientCertPath).isSome
  clientKey := (path clientKeyPath).isSome
  auth := (path authPath).isSome
  project := (path projectPath).isSome

end CBus.Entry
