# A formal model of micolous/cbus in Lean 4

This directory holds a model of the code in `/repo` (micolous/cbus at the
pinned commit), a list of properties (`properties.jsonl`), and Lean 4 proofs of
them (`lean/`). `MANIFEST.json` maps properties to theorems. `seeded/LOG.jsonl`
records the wrong programs that the theorems were tried on.

## 1. How the code is modelled

* Bytes are `List UInt8`. Integers supplied by a caller are `Int` (Python
  integers are unbounded); integers that come out of a byte are made from a
  `UInt8`. Where the code can be handed a `float`, the argument is a `PyNum`
  (integer, exact rational, NaN or infinity); the float operations used
  (comparison, `*4`, `/4`, `int()`) are exact on the values concerned.
* A Python exception is a value: functions that can raise return
  `Except PyErr α`, where `PyErr` enumerates the exception classes that occur.
  Exception messages are not modelled.
* Methods that change an object or have effects are functions from a state to a
  state, a list of effects in order (bytes written, handler invocations, MQTT
  publications, clock and random number readings) and a result or exception
  (`Proc`). Effects that happen before an exception are kept.
* Methods that a subclass overrides (`handle_cbus_packet`, `on_*`) are arguments
  ("hooks"), so the theorems about a base class hold for every subclass that
  the hypotheses admit. `CBusHandler` of cmqttd is one of them.
* `while` loops are recursive functions with termination proofs, so the
  termination of each loop is itself checked by Lean.
* Text is `List Char` (`Str`). What Python knows about Unicode outside ASCII
  (digits, white space, letter case) is a parameter (`UniTable`, `Env`) about
  which only its values on ASCII are assumed. `uuid.UUID(text)` and
  `datetime.fromisoformat` are parameters too.
* Environment inputs (current time, random numbers, what the peer sends, how
  the transport chops it up, what the MQTT broker delivers, what `json.loads`
  returns) are parameters over which the theorems quantify.
* An exception in `data_received` leaves the object as it is at that moment, and
  later data is passed to it as before. This is what happens with a serial port,
  where the event loop logs the exception and goes on (`Model/Serial`); with TCP asyncio closes
  the connection (`Model/Tcp`).

Layers, each in its own module under `lean/Verif/Model/`:

| module | code |
|---|---|
| `Py` | the Python primitives used (bytes indexing, slicing, `find`, base16, `bytes([...])`, `Proc`) |
| `Common` | `cbus/common.py` |
| `Report`, `Cal` | `cbus/protocol/cal/*.py` |
| `Sal` | `cbus/protocol/application/*.py` |
| `Packet` | `base_packet`, `pm_packet`, `pp_packet`, `dm_packet`, special packets |
| `Sequence` | the sequence methods of packets |
| `Decode` | `cbus/protocol/packet.py` |
| `Warnings` | `warnings.warn` in `packet.py` and `cbus/protocol/application/*.py` |
| `Repr` | `__repr__` of the packets, CALs and SALs in `cbus/protocol`, those that `dataclasses` generates, and the ones of CPython and `datetime` for the values in them |
| `Log` | what `handle_data`, `handle_cbus_packet` and the event handlers of the client and the simulated PCI log of a packet |
| `LogData` | what `handle_data` and `_send` log of the bytes that pass, among what they do |
| `Duration` | `duration_to_ramp_rate` and the encoding of ramps, for every number |
| `Buffered` | `buffered_protocol.py`, `cbus_protocol.py` |
| `Client` | `pciprotocol.py` |
| `Tcp`, `Serial` | a client over TCP and on a serial port: what asyncio does when it raises |
| `Server`, `ServerMain` | `pciserverprotocol.py`: the protocol object; its main program with any number of clients |
| `Text`, `Json`, `JsonText`, `DumpText` | `str` methods, `int(text)`, `int(text, 16)`, JSON values, `json.loads`, `json.dumps` and the indented `json.dump` of CPython |
| `Mqtt` | `cbus/daemon/cmqttd.py`: `CBusHandler`, `MqttClient`, topics, `read_auth` |
| `Cbz` | `cbus/toolkit/cbz.py`, `read_cbz_labels` |
| `Dump` | `cbus/toolkit/dump_labels.py`, `cbus/toolkit/graph.py` |
| `Main`, `Broker` | `cmqttd.py` `_main`, `cbus/paho_asyncio.py`; who calls the MQTT client |
| `Startup` | `_main` in a world in which devices, hosts, files and certificates may not be good; what is assumed of `tls_set` and `connect` of paho |
| `AuthFile` | the file of `--broker-auth`: encoding of the locale, universal newlines, and `_main` with it |
| `Keepalive` | `misc_loop` of `cbus/paho_asyncio.py` in time, with the keepalive of paho |
| `DockerRun` | the variables and files of the container as the entry point sees them |
| `Logging` | how `common.py`, `cmqttd.py`, `pciprotocol.py` and `pciserverprotocol.py` set up logging |
| `ArgParse` | `argparse` of Python 3.8, for any table of options |
| `Args` | the options of `cmqttd.py`, as `argparse` reads them |
| `Commands` | the options of `dump_labels.py`, `graph.py`, `decode_packet.py`, `fetch_protocol_docs.py`, `pciprotocol.py` and `pciserverprotocol.py` |
| `Entrypoint` | `entrypoint-cmqttd.sh` |
| `Scripts` | `scripts/cbus_on`, `cbus_off`, `cbus_ramp`, `cbus_listen`, `cbus_config` |
| `Redirect`, `OptParse` | `scripts/tcp_serial_redirect.py`: the two loops and newlines; its command line as `optparse` reads it, its spy and its main program |
| `CniDiscovery` | `experiments/cni_discovery.py` |
| `Tools`, `Downloads` | `cbus/tools/decode_packet.py`, `cbus/tools/fetch_protocol_docs.py` |

Specifications that do not mention the model's helpers live in
`lean/Verif/Spec/` (or directly above their theorem when short), helper lemmas
in `lean/Verif/Lemmas/`, and the property theorems in `lean/Verif/Props/`,
grouped by subject, each with a concrete example that satisfies its hypotheses.
`Lemmas/Trace` and `Lemmas/Run` lift invariants of single steps to histories of
any length.

A property that is false of the code has a theorem `Cxx_false` with a concrete
witness against the claim (`Cxx_claim` where it needs a name), usually a theorem
for all the inputs concerned, and a theorem `..._partial` for the part that
holds.

## 2. Trusted base

* Lean 4.33.0's kernel (every theorem is re-checked by it).
* The axioms `propext`, `Classical.choice`, `Quot.sound` only; every theorem
  depends on a subset of these. No axioms are added; no `sorry`, `native_decide`
  or `bv_decide` is used. Finite tables are settled by `decide +kernel`, that
  is, by evaluation in the kernel.
* Nothing of Mathlib is imported.
* The correspondence between the Lean definitions and the Python source, which
  was established by reading; each definition cites the lines it models. The
  unit tests of `/repo/tests` are restated for the model in `Verif/Tests`.
* The Python facts listed with the primitives in `Model/Py.lean`,
  `Model/Text.lean`, `Model/Json.lean` and `Model/JsonText.lean`.

## 3. What is not modelled

* The texts that are logged, except for those of packets (`Repr`), of events (`Log`) and of bytes (`LogData`); exception messages. Of `warnings.warn`, the calls in
  `cbus/protocol` are modelled (`Warnings`); the filter of Python, which shows them or not, is
  assumed not to turn them into errors.
* asyncio itself, sockets, serial ports, TLS, threads (those of the redirector are
  two loops that take turns), the usage messages of the parsers of command lines,
  how `optparse` reads numbers. The receive lock is
  assumed uncontended (asyncio calls the protocol from one thread).
* XML text, ZIP archives, HTML and graphviz: the model starts
  from parsed values, trees, member lists and start tags, and ends with
  the nodes and edges that pydot is given. Of URLs, `urllib.parse` is modelled as in
  Python 3.7 (later versions also want a letter at the beginning of a scheme); the
  normal form NFKC and the decoding of bytes above 127 are parameters.
* The shell, except for `${x:-y}`, `${x:?}`, `[` and the splitting of words; the
  expansion of file name patterns is a parameter.
* What paho-mqtt does with an exception in `on_message`: it is taken to end this call only, so that
  the next message is handled as if nothing had been (1.5.0, which is required, logs it).
* The standard input as a project file (`-P -`) is taken to be a binary file, as `argparse` gives it
  since Python 3.11; before, it is a text file, which is never recognised as an archive.
* CPython's limits of 4300 digits in `int(text)` and of nesting in JSON; floats in
  JSON texts (what they are read as and written as is a parameter).
* Home Assistant, except for what its documentation says about the discovery of entities
  and about lights with the JSON schema; that is written down in `Spec/HomeAssistant.lean`
  and belongs to the statement of C147.
* `setup.py`, the Sphinx documentation, and `wiser-swf-de/testcmd.py`, a script for Python 2 that
  sends one command and prints what arrives.

## 4. Where the code and its documentation disagree with the properties

| property | what happens |
|---|---|
| C13 | extended status reports of 29 to 252 bytes are encoded with a wrong length |
| C20 | an unknown clock variable swallows the messages behind it |
| C27 | the source address 0 is reported as none |
| C31 | only lighting application 0x38 of 0x30..0x5f can be decoded |
| C33, C41 | a direct CAL command is counted with more bytes than it has, so that the next command is damaged |
| C36, C42 | a line with an odd number of hexadecimal digits makes the decoder raise, and the line stays in the buffer |
| C49 | `--no-clock` is ignored when clock requests are answered |
| C54 | the length field of the presence report is one too large |
| C57 | the first event after a command is lost: the confirmation before it has no line end |
| C58 | the simulated PCI cannot send ramps with the documented levels |
| C60, C61 | a negative brightness raises instead of being clamped |
| C63 | after a ramp to 0 the light is ON and the binary sensor OFF |
| C70 | an empty `<TagName/>` becomes the label `None` |
| C74 | a presence request in smart mode blocks the simulated PCI |
| C75, C77 | an XML project file stops cmqttd: after looking for a ZIP archive the open file is at its end, and nothing is left to parse |
| C80 | unused channels give a node `GA 255` |
| C81 | a failing dump empties the output file |
| C83 | `--tcp` cannot be given an IPv6 address |
| C84 | `decode_packet` refuses every argument |
| C86 | a link with `%2F` in its name is saved outside the destination |
| C90 | without a `connection_lost_future`, which is optional, `connection_lost` raises |
| C92 | `index(x)` of a packet raises `TypeError`: its default bounds are `...` |
| C95 | a value with a space adds options: `MQTT_SERVER='mqtt --broker-disable-tls'` turns off TLS |
| C106 | a CR+LF that the serial port yields in two pieces is not converted |
| C107 | the discovery answer announces port 10017, not 10001 |
| C108 | the length of a standard status report of more than 112 group states runs into the bits of its kind: it announces an extended report |
| C109 | `on_connect` ignores the return code: a connection that the broker refuses is taken for an accepted one |
| C110 | more than 256 characters that arrive in one piece raise in `data_received`: over TCP the connection is closed and cmqttd ends, on a serial port they are lost |
| C111 | the status of a download is not looked at: an error page is saved as the document and never replaced |
| C115 | a serial port that cannot be read any more ends only one of the redirector's threads: the connection stays up and is silent |
| C117 | `--log-file` has no effect: importing `cbus.common` has configured logging already; everything goes to standard error, and what is told the root logger ignores `--verbosity` |
| C118 | a power-up notification is only logged (`on_pci_power_up` is never called): the PCI is not configured again, and all its events are lost |
| C119 | a ramp of more than 1020 seconds is not refused but made one of 1020 seconds |
| C120 | after the connection to the broker is lost nothing makes it again, and the daemon does not end |
| C122 | a terminate-ramp event publishes nothing: the broker goes on showing the level that the stopped ramp would have reached |
| C124 | status reports, temperatures, enable commands and status requests call no handler at all (`on_mmi`, `on_reset`, `on_lighting_label_text` are never called) |
| C125 | a negative confirmation is only logged: the refused command is not sent again and the broker goes on showing it as carried out |
| C126 | a message and the command of another unit that cross leave the broker showing the wrong state for good: a state is published before its command is on the network |
| C128 | a piece of more than 256 bytes is dropped but the receive buffer is kept: halves of two lines can become a command that nobody sent, and its state is published |
| C129 | a set message that another client left at the broker with the retain flag is carried out again at every connection |
| C130 | the transition of a message that switches off is ignored, and fractions of seconds are cut off: 0.5 s becomes at once |
| C131 | the transition that was asked for is published, not the one that the ramp has |
| C132 | `--broker-ca` with a directory, as documented, ends the daemon with an `OSError`: paho takes it for a file. The container does this whenever `/etc/cmqttd/certificates` exists |
| C136 | `--broker-auth` "must be UTF-8 encoded" but is decoded with the encoding of the locale: in Latin-1 every name that is not ASCII is wrong |
| C137 | the third `docker run` command of docs/cmqttd.rst sets `BROKER_USE_TLS=0`, a variable that does not exist: TLS stays on |
| C138 | the housekeeping task runs once a second, so with a keepalive of one or two seconds the client can be silent for longer than the broker allows |
| C140 | two documents of the same name in different directories: the second is skipped as if it had been downloaded |
| C143 | of two slashes in a row in a relative link one is lost, `https:x.pdf` is taken as relative, and dots in an absolute link stay: other addresses are requested; of `c.pdf;v=1` the part before the semicolon decides that it is a PDF file |
| C144 | a single link with one bracket in its host stops the download of all documents |
| C145 | units of the same name, also in different networks, are one node in the drawing, with the arrows of all of them |
| C149 | the daemon never asks for the state of a group: after a start the broker goes on showing what it kept, whatever was switched meanwhile |
| C150 | after a line that cannot be read, an overflow of the buffer drops the whole piece, and what is left of the next line cannot be read either: on a serial port reports may be lost without end |
| C152 | lost bytes that sum to zero, such as `00`, are not noticed: of a report that lost two zeros another level is published (this is how the checksum of C-Bus is) |
| C153 | a packet that was received through bridges cannot be written (`NotImplementedError`), and one from source 0 is written without its source and read as something else |
| C156 | more than 256 characters of commands in one piece (fifteen lamps after connecting) close the connection to the simulated PCI, and none of them is carried out |
| C158 | the text of a temperature or of a network variable is the name of its class and an address in memory: the log does not tell the temperature |
| C159 | the simulated PCI takes levels for numbers from 0.0 to 1.0 when it logs a ramp: full brightness is `25500.00%` |
| C160 | the simulated PCI keeps two packets for each clock update until it sends something; without confirmation codes it never does, so its queue grows without limit |
| C161 | what the simulated PCI held back is written without a line in the log, and a piece of more than 256 bytes is refused without one |
| C171 | a report whose first character becomes `+` or `!` on the way leaves an odd number of digits in the buffer, over which the decoder raises for ever after; over TCP the connection is lost |
| C175 | a command whose confirmation code becomes another on the way is carried out and the wrong code confirmed; with `~` for its backslash it resets the simulated PCI; with `?` or a CR for a digit its remains are unreadable and the commands after it are not carried out |
| C178 | the set-up is sent without checksums: with one digit changed on the way its last command is confirmed and leaves the simulated PCI in basic mode, and its first one (`A3410038` for `A3210038`) makes the simulated PCI refuse the rest |
| C179 | a confirmation whose code becomes a digit on the way takes all confirmations behind it and the next report with it |

Smaller observations: the examples of levels in `report.py`'s docstrings
contradict the code; topics with white space, a sign or underscores in the
number are accepted (C59); `-p 0` of `dump_labels` means compact output; units
with the same name share a node in the graph (C79); bridged packets with bridge
address 0 are refused (C29); the documentation names a module `cbus.daemons.cmqttd`
(it is `cbus.daemon.cmqttd`).

## 5. Properties and how each is proved
