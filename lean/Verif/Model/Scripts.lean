import Verif.Model.JsonText
import Verif.Model.Mqtt

/-! # The example scripts

`scripts/cbus_on`, `cbus_off`, `cbus_ramp`, `cbus_listen` and `cbus_config`: what they
print and which programs of Mosquitto they start. `mosquitto_pub`, `mosquitto_sub` and
`jq` are not modelled; a message that `mosquitto_pub` is given reaches the broker, and
from there the daemon, unchanged.

The scripts are for `/bin/sh` but use `[[`, which not every shell has: `brackets` is
whether this one does. If not, the command is not found, which is not success, and the
script goes on. -/

namespace CBus.Scripts

/-- What a script does. -/
inductive Cmd
  | echo (line : Str)
  /-- `mosquitto_pub -q qos -t topic -m message`. -/
  | pub (qos : Nat) (topic : Str) (message : Str)
  /-- `mosquitto_sub -q qos -t topic`, `-W` with a time in seconds. -/
  | sub (qos : Nat) (timeout : Option Nat) (topic : Str)
  | exit (status : Nat)
  deriving DecidableEq, Repr

/-- `if [[ -z "$1" || … ]]; then echo …; exit 1; fi`, and then the rest. -/
def checked (brackets : Bool) (args : List Str) (usage : List Str) (rest : List Cmd) : List Cmd :=
  if brackets && args.any (· == []) then usage.map .echo ++ [.exit 1] else rest

/-- scripts/cbus_on:10-17. -/
def cbusOn (brackets : Bool) (name a : Str) : List Cmd :=
  checked brackets [a] ["Usage: ".toList ++ name ++ " <group_address>".toList,
      "eg: to turn on group address 1, run:".toList, "   ".toList ++ name ++ " 1".toList]
    [.pub 1 ("homeassistant/light/cbus_".toList ++ a ++ "/set".toList) "{ \"state\": \"ON\" }".toList]

/-- scripts/cbus_off:10-17. -/
def cbusOff (brackets : Bool) (name a : Str) : List Cmd :=
  checked brackets [a] ["Usage: ".toList ++ name ++ " <group_address>".toList,
      "eg: to turn off group address 1, run:".toList, "   ".toList ++ name ++ " 1".toList]
    [.pub 1 ("homeassistant/light/cbus_".toList ++ a ++ "/set".toList) "{ \"state\": \"OFF\" }".toList]

/-- scripts/cbus_ramp:10-18. -/
def cbusRamp (brackets : Bool) (name a duration level : Str) : List Cmd :=
  checked brackets [a, duration, level] ["Usage: ".toList ++ name ++ " <group_address> <duration> <level>".toList,
      "To turn ramp group address 1 over 20 seconds to half brightness, run:".toList,
      "   ".toList ++ name ++ " 1 20 127".toList]
    [.pub 1 ("homeassistant/light/cbus_".toList ++ a ++ "/set".toList)
      ("{ \"state\": \"ON\", \"transition\": ".toList ++ duration ++ ", \"brightness\": ".toList ++ level ++ " }".toList)]

/-- scripts/cbus_listen:10-17. -/
def cbusListen (brackets : Bool) (name a : Str) : List Cmd :=
  checked brackets [a] ["Usage: ".toList ++ name ++ " <group_address>".toList,
      "To get the state of C-Bus group address 1, run:".toList, "   ".toList ++ name ++ " 1".toList]
    [.sub 1 none ("homeassistant/light/cbus_".toList ++ a ++ "/state".toList)]

/-- scripts/cbus_config:10-20. -/
def cbusConfig (brackets : Bool) (name a : Str) : List Cmd :=
  checked brackets [a] ["Usage: ".toList ++ name ++ " <group_address>".toList,
      "To get the configuration for C-Bus group address 1, run:".toList, "   ".toList ++ name ++ " 1".toList]
    [.echo ("Topic: ".toList ++ ("homeassistant/light/cbus_".toList ++ a ++ "/config".toList)),
     .sub 1 (some 2) ("homeassistant/light/cbus_".toList ++ a ++ "/config".toList)]

/-- The messages that reach the broker, with their bytes. -/
def published (l : List Cmd) : List (Str × Bytes) :=
  l.filterMap fun c => match c with
    | .pub _ t m => some (t, m.flatMap String.utf8EncodeChar)
    | _ => none

/-- The topics that are listened to. -/
def listened (l : List Cmd) : List Str :=
  l.filterMap fun c => match c with
    | .sub _ _ t => some t
    | _ => none

end CBus.Scripts
