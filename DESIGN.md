# A formal model of micolous/cbus in Lean 4

This directory holds a model of the code in `/repo` (micolous/cbus at the
pinned commit), a list of properties (`properties.jsonl`), and Lean 4 proofs of
them (`lean/`). `MANIFEST.json` maps properties to theorems. `seeded/LOG.jsonl`
records the wrong programs that the theorems were tried on.

## 1. How the code is modelled

* Bytes are `List UInt8`. Integers supplied by a caller are `Int` (Python
  integers are unbounded); integers that come out of a byte are made from a
  `UInt8`. Where the code can be handed a `float`, the argument is a `PyNum`
  (integer, exact rational, NaN or infinity); the float operations used
  (comparison, `*4`, `/4`, `int()`) are exact on the values concerned.
* A Python exception is a value: functions that can raise return
  `Except PyErr α`, where `PyErr` enumerates the exception classes that occur.
  Exception messages are not modelled.
* Methods that change an object or have effects are functions from a state to a
  state, a list of effects in order (bytes written, handler invocations, MQTT
  publications, clock and random number readings) and a result or exception
  (`Proc`). Effects that happen before an exception are kept.
* Methods that a subclass overrides (`handle_cbus_packet`, `on_*`) are arguments
  ("hooks"), so the theorems about a base class hold for every subclass that
  the hypotheses admit. `CBusHandler` of cmqttd is one of them.
* `while` loops are recursive functions with termination proofs, so the
  termination of each loop is itself checked by Lean.
* Text is `List Char` (`Str`). What Python knows about Unicode outside ASCII
  (digits, white space, letter case) is a parameter (`UniTable`, `Env`) about
  which only its values on ASCII are assumed. `uuid.UUID(text)` and
  `datetime.fromisoformat` are parameters too.
* Environment inputs (current time, random numbers, what the peer sends, how
  the transport chops it up, what the MQTT broker delivers, what `json.loads`
  returns) are parameters over which the theorems quantify.
* An exception in `data_received` leaves the object as it is at that moment, and
  later data is passed to it as before. This is what happens with a serial port,
  where the event loop logs the exception and goes on (`Model/Serial`); with TCP asyncio closes
  the connection (`Model/Tcp`).

Layers, each in its own module under `lean/Verif/Model/`:

| module | code |
|---|---|
| `Py` | the Python primitives used (bytes indexing, slicing, `find`, base16, `bytes([...])`, `Proc`) |
| `Common` | `cbus/common.py` |
| `Report`, `Cal` | `cbus/protocol/cal/*.py` |
| `Sal` | `cbus/protocol/application/*.py` |
| `Packet` | `base_packet`, `pm_packet`, `pp_packet`, `dm_packet`, special packets |
| `Sequence` | the sequence methods of packets |
| `Decode` | `cbus/protocol/packet.py` |
| `Warnings` | `warnings.warn` in `packet.py` and `cbus/protocol/application/*.py` |
| `Repr` | `__repr__` of the packets, CALs and SALs in `cbus/protocol`, those that `dataclasses` generates, and the ones of CPython and `datetime` for the values in them |
| `Log` | what `handle_data`, `handle_cbus_packet` and the event handlers of the client and the simulated PCI log of a packet |
| `LogData` | what `handle_data` and `_send` log of the bytes that pass, among what they do |
| `Duration` | `duration_to_ramp_rate` and the encoding of ramps, for every number |
| `Buffered` | `buffered_protocol.py`, `cbus_protocol.py` |
| `Client` | `pciprotocol.py` |
| `Tcp`, `Serial` | a client over TCP and on a serial port: what asyncio does when it raises |
| `Server`, `ServerMain` | `pciserverprotocol.py`: the protocol object; its main program with any number of clients |
| `Text`, `Json`, `JsonText`, `DumpText` | `str` methods, `int(text)`, `int(text, 16)`, JSON values, `json.loads`, `json.dumps` and the indented `json.dump` of CPython |
| `Mqtt` | `cbus/daemon/cmqttd.py`: `CBusHandler`, `MqttClient`, topics, `read_auth` |
| `Cbz` | `cbus/toolkit/cbz.py`, `read_cbz_labels` |
| `Dump` | `cbus/toolkit/dump_labels.py`, `cbus/toolkit/graph.py` |
| `Main`, `Broker` | `cmqttd.py` `_main`, `cbus/paho_asyncio.py`; who calls the MQTT client |
| `Startup` | `_main` in a world in which devices, hosts, files and certificates may not be good; what is assumed of `tls_set` and `connect` of paho |
| `AuthFile` | the file of `--broker-auth`: encoding of the locale, universal newlines, and `_main` with it |
| `Keepalive` | `misc_loop` of `cbus/paho_asyncio.py` in time, with the keepalive of paho |
| `DockerRun` | the variables and files of the container as the entry point sees them |
| `Logging` | how `common.py`, `cmqttd.py`, `pciprotocol.py` and `pciserverprotocol.py` set up logging |
| `ArgParse` | `argparse` of Python 3.8, for any table of options |
| `Args` | the options of `cmqttd.py`, as `argparse` reads them |
| `Commands` | the options of `dump_labels.py`, `graph.py`, `decode_packet.py`, `fetch_protocol_docs.py`, `pciprotocol.py` and `pciserverprotocol.py` |
| `Entrypoint` | `entrypoint-cmqttd.sh` |
| `Scripts` | `scripts/cbus_on`, `cbus_off`, `cbus_ramp`, `cbus_listen`, `cbus_config` |
| `Redirect`, `OptParse` | `scripts/tcp_serial_redirect.py`: the two loops and newlines; its command line as `optparse` reads it, its spy and its main program |
| `CniDiscovery` | `experiments/cni_discovery.py` |
| `Tools`, `Downloads` | `cbus/tools/decode_packet.py`, `cbus/tools/fetch_protocol_docs.py` |

Specifications that do not mention the model's helpers live in
`lean/Verif/Spec/` (or directly above their theorem when short), helper lemmas
in `lean/Verif/Lemmas/`, and the property theorems in `lean/Verif/Props/`,
grouped by subject, each with a concrete example that satisfies its hypotheses.
`Lemmas/Trace` and `Lemmas/Run` lift invariants of single steps to histories of
any length.

A property that is false of the code has a theorem `Cxx_false` with a concrete
witness against the claim (`Cxx_claim` where it needs a name), usually a theorem
for all the inputs concerned, and a theorem `..._partial` for the part that
holds.

## 2. Trusted base

* Lean 4.33.0's kernel (every theorem is re-checked by it).
* The axioms `propext`, `Classical.choice`, `Quot.sound` only; every theorem
  depends on a subset of these. No axioms are added; no `sorry`, `native_decide`
  or `bv_decide` is used. Finite tables are settled by `decide +kernel`, that
  is, by evaluation in the kernel.
* Nothing of Mathlib is imported.
* The correspondence between the Lean definitions and the Python source, which
  was established by reading; each definition cites the lines it models. The
  unit tests of `/repo/tests` are restated for the model in `Verif/Tests`.
* The Python facts listed with the primitives in `Model/Py.lean`,
  `Model/Text.lean`, `Model/Json.lean` and `Model/JsonText.lean`.

## 3. What is not modelled

* The texts that are logged, except for those of packets (`Repr`), of events (`Log`) and of bytes (`LogData`); exception messages. Of `warnings.warn`, the calls in
  `cbus/protocol` are modelled (`Warnings`); the filter of Python, which shows them or not, is
  assumed not to turn them into errors.
* asyncio itself, sockets, serial ports, TLS, threads (those of the redirector are
  two loops that take turns), the usage messages of the parsers of command lines,
  how `optparse` reads numbers. The receive lock is
  assumed uncontended (asyncio calls the protocol from one thread).
* XML text, ZIP archives, HTML and graphviz: the model starts
  from parsed values, trees, member lists and start tags, and ends with
  the nodes and edges that pydot is given. Of URLs, `urllib.parse` is modelled as in
  Python 3.7 (later versions also want a letter at the beginning of a scheme); the
  normal form NFKC and the decoding of bytes above 127 are parameters.
* The shell, except for `${x:-y}`, `${x:?}`, `[` and the splitting of words; the
  expansion of file name patterns is a parameter.
* What paho-mqtt does with an exception in `on_message`: it is taken to end this call only, so that
  the next message is handled as if nothing had been (1.5.0, which is required, logs it).
* The standard input as a project file (`-P -`) is taken to be a binary file, as `argparse` gives it
  since Python 3.11; before, it is a text file, which is never recognised as an archive.
* CPython's limits of 4300 digits in `int(text)` and of nesting in JSON; floats in
  JSON texts (what they are read as and written as is a parameter).
* Home Assistant, except for what its documentation says about the discovery of entities
  and about lights with the JSON schema; that is written down in `Spec/HomeAssistant.lean`
  and belongs to the statement of C147.
* `setup.py`, the Sphinx documentation, and `wiser-swf-de/testcmd.py`, a script for Python 2 that
  sends one command and prints what arrives.

## 4. Where the code and its documentation disagree with the properties

| property | what happens |
|---|---|
| C13 | extended status reports of 29 to 252 bytes are encoded with a wrong length |
| C20 | an unknown clock variable swallows the messages behind it |
| C27 | the source address 0 is reported as none |
| C31 | only lighting application 0x38 of 0x30..0x5f can be decoded |
| C33, C41 | a direct CAL command is counted with more bytes than it has, so that the next command is damaged |
| C36, C42 | a line with an odd number of hexadecimal digits makes the decoder raise, and the line stays in the buffer |
| C49 | `--no-clock` is ignored when clock requests are answered |
| C54 | the length field of the presence report is one too large |
| C57 | the first event after a command is lost: the confirmation before it has no line end |
| C58 | the simulated PCI cannot send ramps with the documented levels |
| C60, C61 | a negative brightness raises instead of being clamped |
| C63 | after a ramp to 0 the light is ON and the binary sensor OFF |
| C70 | an empty `<TagName/>` becomes the label `None` |
| C74 | a presence request in smart mode blocks the simulated PCI |
| C75, C77 | an XML project file stops cmqttd: after looking for a ZIP archive the open file is at its end, and nothing is left to parse |
| C80 | unused channels give a node `GA 255` |
| C81 | a failing dump empties the output file |
| C83 | `--tcp` cannot be given an IPv6 address |
| C84 | `decode_packet` refuses every argument |
| C86 | a link with `%2F` in its name is saved outside the destination |
| C90 | without a `connection_lost_future`, which is optional, `connection_lost` raises |
| C92 | `index(x)` of a packet raises `TypeError`: its default bounds are `...` |
| C95 | a value with a space adds options: `MQTT_SERVER='mqtt --broker-disable-tls'` turns off TLS |
| C106 | a CR+LF that the serial port yields in two pieces is not converted |
| C107 | the discovery answer announces port 10017, not 10001 |
| C108 | the length of a standard status report of more than 112 group states runs into the bits of its kind: it announces an extended report |
| C109 | `on_connect` ignores the return code: a connection that the broker refuses is taken for an accepted one |
| C110 | more than 256 characters that arrive in one piece raise in `data_received`: over TCP the connection is closed and cmqttd ends, on a serial port they are lost |
| C111 | the status of a download is not looked at: an error page is saved as the document and never replaced |
| C115 | a serial port that cannot be read any more ends only one of the redirector's threads: the connection stays up and is silent |
| C117 | `--log-file` has no effect: importing `cbus.common` has configured logging already; everything goes to standard error, and what is told the root logger ignores `--verbosity` |
| C118 | a power-up notification is only logged (`on_pci_power_up` is never called): the PCI is not configured again, and all its events are lost |
| C119 | a ramp of more than 1020 seconds is not refused but made one of 1020 seconds |
| C120 | after the connection to the broker is lost nothing makes it again, and the daemon does not end |
| C122 | a terminate-ramp event publishes nothing: the broker goes on showing the level that the stopped ramp would have reached |
| C124 | status reports, temperatures, enable commands and status requests call no handler at all (`on_mmi`, `on_reset`, `on_lighting_label_text` are never called) |
| C125 | a negative confirmation is only logged: the refused command is not sent again and the broker goes on showing it as carried out |
| C126 | a message and the command of another unit that cross leave the broker showing the wrong state for good: a state is published before its command is on the network |
| C128 | a piece of more than 256 bytes is dropped but the receive buffer is kept: halves of two lines can become a command that nobody sent, and its state is published |
| C129 | a set message that another client left at the broker with the retain flag is carried out again at every connection |
| C130 | the transition of a message that switches off is ignored, and fractions of seconds are cut off: 0.5 s becomes at once |
| C131 | the transition that was asked for is published, not the one that the ramp has |
| C132 | `--broker-ca` with a directory, as documented, ends the daemon with an `OSError`: paho takes it for a file. The container does this whenever `/etc/cmqttd/certificates` exists |
| C136 | `--broker-auth` "must be UTF-8 encoded" but is decoded with the encoding of the locale: in Latin-1 every name that is not ASCII is wrong |
| C137 | the third `docker run` command of docs/cmqttd.rst sets `BROKER_USE_TLS=0`, a variable that does not exist: TLS stays on |
| C138 | the housekeeping task runs once a second, so with a keepalive of one or two seconds the client can be silent for longer than the broker allows |
| C140 | two documents of the same name in different directories: the second is skipped as if it had been downloaded |
| C143 | of two slashes in a row in a relative link one is lost, `https:x.pdf` is taken as relative, and dots in an absolute link stay: other addresses are requested; of `c.pdf;v=1` the part before the semicolon decides that it is a PDF file |
| C144 | a single link with one bracket in its host stops the download of all documents |
| C145 | units of the same name, also in different networks, are one node in the drawing, with the arrows of all of them |
| C149 | the daemon never asks for the state of a group: after a start the broker goes on showing what it kept, whatever was switched meanwhile |
| C150 | after a line that cannot be read, an overflow of the buffer drops the whole piece, and what is left of the next line cannot be read either: on a serial port reports may be lost without end |
| C152 | lost bytes that sum to zero, such as `00`, are not noticed: of a report that lost two zeros another level is published (this is how the checksum of C-Bus is) |
| C153 | a packet that was received through bridges cannot be written (`NotImplementedError`), and one from source 0 is written without its source and read as something else |
| C156 | more than 256 characters of commands in one piece (fifteen lamps after connecting) close the connection to the simulated PCI, and none of them is carried out |
| C158 | the text of a temperature or of a network variable is the name of its class and an address in memory: the log does not tell the temperature |
| C159 | the simulated PCI takes levels for numbers from 0.0 to 1.0 when it logs a ramp: full brightness is `25500.00%` |
| C160 | the simulated PCI keeps two packets for each clock update until it sends something; without confirmation codes it never does, so its queue grows without limit |
| C161 | what the simulated PCI held back is written without a line in the log, and a piece of more than 256 bytes is refused without one |
| C171 | a report whose first character becomes `+` or `!` on the way leaves an odd number of digits in the buffer, over which the decoder raises for ever after; over TCP the connection is lost |
| C175 | a command whose confirmation code becomes another on the way is carried out and the wrong code confirmed; with `~` for its backslash it resets the simulated PCI; with `?` or a CR for a digit its remains are unreadable and the commands after it are not carried out |
| C178 | the set-up is sent without checksums: with one digit changed on the way its last command is confirmed and leaves the simulated PCI in basic mode, and its first one (`A3410038` for `A3210038`) makes the simulated PCI refuse the rest |
| C179 | a confirmation whose code becomes a digit on the way takes all confirmations behind it and the next report with it |

Smaller observations: the examples of levels in `report.py`'s docstrings
contradict the code; topics with white space, a sign or underscores in the
number are accepted (C59); `-p 0` of `dump_labels` means compact output; units
with the same name share a node in the graph (C79); bridged packets with bridge
address 0 are refused (C29); the documentation names a module `cbus.daemons.cmqttd`
(it is `cbus.daemon.cmqttd`).

## 5. Properties and how each is proved

| id | title | status | how it is proved | theorems |
|---|---|---|---|---|
| C01 | Appended checksums always validate | proved | `Common.addChecksum`; sum of bytes mod 256, by arithmetic | `C01_checksum_valid`, `C01_validate_iff`, `C01_checksum_unique` |
| C02 | Any single corrupted byte is caught by the checksum | proved | modular arithmetic: replacing one summand changes the sum mod 256 | `C02_single_byte_error`, `C02_swap_undetected` |
| C03 | Base16 framing is lossless and clean | proved | induction on the byte string over the base16 model | `C03_base16_clean`, `C03_base16_inverse` |
| C04 | Group addresses are accepted exactly in 0..255 | proved | decision logic | `C04_group_address`, `C04_constructors` |
| C05 | Ramp durations are rounded up to the nearest supported rate | proved | decision logic over the 16-row table with a symbolic duration | `C05_round_up`, `C05_number`, `C05_extremes`, `C05_whole`, `C05_ramp` |
| C06 | Ramp rate codes and durations are mutually inverse and monotone | proved | table facts plus C05's characterisation | `C06_duration_exact`, `C06_rate_table`, `C06_monotone` |
| C07 | Manchester level coding round-trips | proved | finite check over all residues lifted to all integers | `C07_manchester_roundtrip`, `C07_manchester_byte`, `C07_manchester_missing` |
| C08 | Single-bit line noise never yields a wrong level | proved | finite check over the whole 256x16 space by kernel evaluation | `C08_single_bit_noise`, `C08_only_codewords`, `C08_half`, `C08_legal_nibbles`, `C08_other_lengths` |
| C09 | manchester_encode writes only its two bytes | proved | list lemmas about `set` | `C09_encode_in_place`, `C09_too_small`, `C09_from_start`, `C09_from_end` |
| C10 | Level status reports round-trip | proved | induction on the list of levels | `C10_level_roundtrip`, `C10_level_decode` |
| C11 | Binary status reports round-trip in both directions | proved | induction on bytes / on blocks of four states | `C11_binary_bytes`, `C11_binary_states`, `C11_binary_layout` |
| C12 | Extended status CALs round-trip when they fit | proved | C10/C11 plus framing lemmas, arbitrary suffix | `C12_extended_roundtrip` |
| C13 | Over-long extended status reports are never silently mis-framed | partial | false of the code; the misframing is proved for every size from 29 to 252, correctness for all others | `C13_overlong_misframed`, `C13_false`, `C13_overlong_partial` |
| C14 | IDENTIFY, RECALL and REPLY CALs round-trip | proved | per-CAL framing lemmas with arbitrary suffix | `C14_identify`, `C14_identify_undefined`, `C14_recall`, `C14_reply` |
| C15 | A sequence of CALs decodes to exactly that sequence | proved | induction on the CAL list using C12/C14 | `C15_cal_sequence`, `C15_decode_pieces` |
| C16 | A sequence of lighting commands decodes to exactly that sequence | proved | induction on the SAL list, append form | `C16_lighting_sequence` |
| C17 | Malformed lighting data never disturbs the commands before it | proved | same induction with arbitrary suffix | `C17_lighting_total`, `C17_lighting_suffix`, `C17_lighting_sound` |
| C18 | Clock updates round-trip for every date and time | proved | induction on the SAL list; date codec lemmas | `C18_clock_sequence`, `C18_datetime`, `C18_update`, `C18_kind` |
| C19 | The transmitted day of week is the calendar day of week | proved | calendar arithmetic on the ordinal used by `date.weekday` | `C19_weekday` |
| C20 | An unknown clock variable does not swallow its neighbours | partial | false of the code; what is skipped is characterised exactly | `C20_false`, `C20_unknown_variable_partial` |
| C21 | Temperatures are transmitted to within a quarter degree | proved | rational arithmetic | `C21_temperature`, `C21_temperature_rejected`, `C21_temperature_sequence` |
| C22 | Enable-control variables round-trip | proved | induction | `C22_enable_sequence` |
| C23 | Status requests round-trip | proved | induction | `C23_status_sequence` |
| C24 | A packet never mixes applications | proved | invariant by induction on histories | `C24_append`, `C24_never_mixes`, `C24_clear`, `C24_contents`, `C24_frame` |
| C25 | Commands to the PCI survive encode / decode | proved | composition: base16, checksum, flags, SAL round trips, framing | `C25_command` |
| C26 | Events from the PCI survive encode / decode | proved | as C25 | `C26_event` |
| C27 | The source address of an event is reported faithfully | partial | false for address 0 (witness); every other address by the decoder's inverse lemmas | `C27_every_partial`, `C27_source_partial`, `C27_false` |
| C28 | Point-to-point packets survive encode / decode | proved | as C25 with C15 | `C28_command`, `C28_event` |
| C29 | Bridged point-to-point packets are decoded with their route | proved | decode specification for all six route codes; failure for all others (bridge address 0 is rejected: noted) | `C29_bridged`, `C29_bad_route` |
| C30 | Device management packets survive encode / decode | proved | as C25 | `C30_command`, `C30_event` |
| C31 | Every lighting application address is decoded | partial | false of the code except 0x38; all 48 applications are settled | `C31_lighting_applications_partial`, `C31_commands_partial`, `C31_false` |
| C32 | Corrupted frames are never acted on | proved | case analysis of the decoder with C02 | `C32_pci_invalid`, `C32_client_invalid`, `C32_pci_only_valid`, `C32_client_only_valid`, `C32_single_byte`, `C32_single_character`, `C32_single_character_command` |
| C33 | decode_packet never consumes more than it was given | partial | false for direct CAL commands: witness; `_partial` for every other case | `C33_position_partial`, `C33_false`, `C33_cal` |
| C34 | decode_packet waits for complete messages and always makes progress | proved | case analysis of the framing stage | `C34_pci`, `C34_client`, `C34_progress` |
| C35 | Decoding the first message does not depend on what follows it | proved | framing stage is prefix-stable | `C35_prefix_stable` |
| C36 | No received bytes make the decoder raise | partial | false; the inputs on which it raises are characterised exactly in both directions | `C36_pci_partial`, `C36_client_partial`, `C36_client_strict`, `C36_false` |
| C37 | Confirmations are decoded and encoded faithfully | proved | case analysis | `C37_confirmation`, `C37_first_character`, `C37_invalid_code`, `C37_codes` |
| C38 | Cancel and null inputs are discarded exactly | proved | case analysis with `find` lemmas | `C38_cancel`, `C38_null`, `C38_reset`, `C38_smart` |
| C39 | The receive buffer is bounded | proved | invariant over histories of the generic buffered protocol with an arbitrary handler | `C39_bounded`, `C39_overflow`, `C39_contract`, `C39_limit` |
| C40 | Client: how the stream is chopped does not matter | proved | induction on chunks using C35 | `C40_client`, `C40_idle` |
| C41 | Server: how the stream is chopped does not matter | partial | false because of C33: witness; `_partial` for streams without direct CAL commands | `C41_server_partial`, `C41_idle`, `C41_false`, `C41_swallowed` |
| C42 | A malformed frame does not block the frames behind it | partial | false for lines on which the decoder raises: they block the buffer (proved for all); partial for all other malformed lines | `C42_client_partial`, `C42_server_partial`, `C42_blocked`, `C42_blocked_server`, `C42_false`, `C42_client_line`, `C42_client_goes_on`, `C42_server_line`, `C42_server_skips` |
| C43 | Confirmation codes do not repeat within twenty commands | proved | invariant over arbitrary histories (`Trace`): the counter and the codes written | `C43_cycle`, `C43_distinct`, `C43_returned`, `C43_daemon` |
| C44 | Each lighting call writes exactly one well-formed command | proved | computation of `_send` on lighting packets | `C44_one_command`, `C44_full` |
| C45 | Rejected calls have no effect | proved | case analysis | `C45_no_effect`, `C45_kind`, `C45_exactly` |
| C46 | Connecting resets and configures the PCI | proved | computation from an arbitrary state | `C46_connect` |
| C47 | Each received lighting command raises exactly one event | proved | induction on the SAL list | `C47_short`, `C47_packet`, `C47_stream` |
| C48 | Clock requests are answered exactly when enabled | proved | case analysis | `C48_answers`, `C48_decodes` |
| C49 | The --no-clock option stops cmqttd answering clock requests | partial | false of the code: cmqttd answers although told not to; partial for packets without a clock request | `C49_no_request_partial`, `C49_false` |
| C50 | Interface options are applied and reset exactly | proved | case analysis on the eight bits | `C50_options`, `C50_other_parameters`, `C50_reset`, `C50_shortcut`, `C50_untouched` |
| C51 | Every accepted command is confirmed exactly once | proved | induction on the SAL list | `C51_confirmed`, `C51_queue_lines` |
| C52 | Queued packets are sent once, in order, after the triggering reply | proved | invariant over histories with ghost queue | `C52_fifo`, `C52_conserved` |
| C53 | Basic mode echoes exactly what was consumed | proved | induction over the receive loop | `C53_message`, `C53_unconnected`, `C53_stream`, `C53_basic`, `C53_smart` |
| C54 | The unit presence report covers every unit block | partial | length field is off by one: negation; `_partial` for coverage and checksum | `C54_report_partial`, `C54_length`, `C54_false` |
| C55 | Client commands reach a simulated PCI exactly | proved | simulation: C25, C40-style chopping, C50 | `C55_delivered`, `C55_small_pieces_fit` |
| C56 | Events from a simulated PCI reach the client exactly | proved | as C55 for the other direction | `C56_delivered`, `C56_small_pieces_fit`, `C56_answers` |
| C57 | The first event after connecting is not lost | partial | false of the code, for every event and chopping; all later events are delivered (partial) | `C57_later_partial`, `C57_false` |
| C58 | The simulated PCI can send ramp events | partial | false of the code for every documented float level; partial for integer levels | `C58_false`, `C58_default`, `C58_integer_partial` |
| C59 | Topics and group addresses correspond one to one | proved | string lemmas | `C59_text`, `C59_inverse`, `C59_others`, `C59_distinct` |
| C60 | An MQTT set message drives exactly its own group | partial | case analysis | `C60_acts_partial`, `C60_ignored`, `C60_raises`, `C60_every`, `C60_nothing_else`, `C60_disconnected`, `C60_false` |
| C61 | Out-of-range brightness is clamped | partial | false for negative brightness: proved negation; `_partial` otherwise | `C61_clamped_partial`, `C61_negative`, `C61_false` |
| C62 | Published state mirrors the C-Bus event | proved | case analysis | `C62_event`, `C62_packet` |
| C63 | The light state and the binary sensor agree | partial | false for ramps to 0; `_partial` otherwise | `C63_events_partial`, `C63_messages_partial`, `C63_false` |
| C64 | C-Bus frames become MQTT messages end to end | proved | composition of C26, C40, C62 | `C64_short`, `C64_stream` |
| C65 | MQTT set messages become C-Bus frames end to end | proved | composition of C25, C44, C60 | `C65_decodes`, `C65_simulated_pci` |
| C66 | Discovery announces every group exactly once | proved | list lemmas | `C66_connect`, `C66_distinct`, `C66_daemon`, `C66_announced`, `C66_labels_cosmetic` |
| C67 | cmqttd's own publications never trigger it | proved | string lemmas | `C67_no_feedback` |
| C68 | Application handlers are registered consistently | proved | invariant over histories | `C68_register`, `C68_stable`, `C68_builtin_order`, `C68_get_application` |
| C69 | Labels come only from the one direct network's lighting application | proved | fold lemmas | `C69_labels`, `C69_readable`, `C69_proper`, `C69_described`, `C69_incomplete`, `C69_file` |
| C70 | An empty project element does not become a label | partial | false of the code (witness, and for every such file); partial for names that are present but blank | `C70_false`, `C70_blank_partial`, `C70_none` |
| C71 | Every project field is reachable | proved | finite tables by kernel evaluation, lifted to every `str.lower` that is right about ASCII; the names that occur in `/repo/tests/data` reach the right attributes | `C71_distinct`, `C71_reached`, `C71_toolkit` |
| C72 | Credentials are read verbatim from the auth file | proved | string lemmas | `C72_auth`, `C72_verbatim` |
| C73 | Periodic time synchronisation sends one update per period | proved | induction on the number of periods | `C73_periodic`, `C73_disabled`, `C73_disconnected` |
| C74 | A command that is not supported does not stop the simulated PCI | partial | false of the code in smart mode: an unsupported command blocks the buffer; case analysis of every other packet (partial) | `C74_consumed_partial`, `C74_stuck`, `C74_false` |
| C75 | A project file is read from exactly the right places | partial | case analysis with suffix lemmas | `C75_false`, `C75_archive_partial`, `C75_xml_partial`, `C75_unread` |
| C76 | Project elements are read field by field | proved | induction on attributes and children; compared with a specification by filtering (`FieldValue`) | `C76_fields`, `C76_readable` |
| C77 | Project labels reach Home Assistant | partial | composition of C69 (the labels of a file) and C66 (what is announced) | `C77_labels_partial`, `C77_false`, `C77_announced_partial` |
| C78 | A dump has every network, application, group and unit | proved | induction over the project structure; compared with a specification of the output by address (`Spec/Dump`) | `C78_dump`, `C78_succeeds`, `C78_described`, `C78_addresses`, `C78_file` |
| C79 | The graph shows which unit drives which group | proved | induction over the units and groups of a dump | `C79_file`, `C79_graph`, `C79_drawn` |
| C80 | Unused channels are not drawn | partial | false of the code (witness); arrows are right (partial) | `C80_false`, `C80_arrows_partial` |
| C81 | A failed dump leaves the output file alone | partial | false of the code (witness); the contents when the dump succeeds (partial) | `C81_false`, `C81_output_partial` |
| C82 | The daemon connects to the broker as it is told | proved | case analysis of the options; the list of actions is described without the code's branches | `C82_refused`, `C82_broker`, `C82_running` |
| C83 | The daemon connects to the given C-Bus host | partial | false for hosts with a colon, and what happens then; every host without a colon (partial) | `C83_false`, `C83_colon`, `C83_host_partial` |
| C84 | decode_packet prints the packet | partial | false for every argument; what the printing function does (partial) | `C84_refused`, `C84_false`, `C84_pretty_partial` |
| C85 | Documents are downloaded once and never overwritten | proved | induction over the links with an invariant of the disk (`Downloaded`) | `C85_no_overwrite`, `C85_complete` |
| C86 | Documents are written only inside the destination | partial | false of the code: encoded slashes; every other name (partial) | `C86_false`, `C86_anywhere`, `C86_inside_partial`, `C86_plain` |
| C87 | The MQTT client's socket is served while it is open | proved | invariant over arbitrary alternating histories | `C87_reads`, `C87_housekeeping`, `C87_raises` |
| C88 | A client and a simulated PCI agree under every interleaving | proved | invariant over both directions of the link, preserved by every action | `C88_interleaved`, `C88_client` |
| C89 | The daemon keeps broker and network in step under every interleaving | proved | the invariant of C88 for the handlers of the daemon | `C89_daemon`, `C89_every_message` |
| C90 | A lost connection is noticed | partial | false of the code without a future: `None.set_result`; with one, over all histories (partial) | `C90_false`, `C90_resolved_partial`, `C90_silent` |
| C91 | A packet reads as the sequence of its parts | proved | from CPython's rules for list indices | `C91_sals`, `C91_cals`, `C91_reports`, `C91_reversed`, `C91_binary_group` |
| C92 | index finds an element of a packet | partial | false of the code without bounds: the default is Ellipsis; with bounds by induction (partial) | `C92_always`, `C92_false`, `C92_bounds_partial` |
| C93 | The command line of cmqttd is read as it is documented | proved | A grammar of spellings, independent of the parser, is shown to be read as the list of its options, by induction over the words. For the second part a word that is read as an option is characterised in both directions. | `C93_spelled`, `C93_line`, `C93_tls`, `C93_clock`, `C93_values` |
| C94 | The container starts cmqttd with the options its variables promise | proved | The text that the script builds is shown to split into the words of a list of options; C93 then says how they are read. | `C94_refuses`, `C94_options` |
| C95 | Only MQTT_USE_TLS turns off TLS in the container | partial | Through C93's characterisation of the words that disable TLS. False: the values are not quoted, so a space in MQTT_SERVER adds options. | `C95_false`, `C95_words`, `C95_tls_partial` |
| C96 | Numbers and white space in texts are read as Python's manual says | proved | The loops over digits are proved equivalent to an inductive description of digits, signs and prefixes that knows no loops; trimming is described by the parts removed. | `C96_strip`, `C96_decimal`, `C96_hexadecimal`, `C96_written` |
| C97 | A project file with which something is wrong raises the exception for the first thing wrong | proved | An inductive relation describes which element is the first one wrong and why; both directions are proved by induction over the tree. | `C97_attribute`, `C97_text`, `C97_element`, `C97_labels`, `C97_dump` |
| C98 | Everything received is decoded by one grammar of messages, and what is invalid carries its reason | proved | Spec/Grammar.lean is the grammar, as inductive relations from bytes to results. C98_received and C98_sent: decode_packet = ok r iff the grammar derives r. The levels below have their own theorems: C98_applications (SALs), C98_cal and C98_cals, C98_pm, C98_pp, C98_dm, C98_event and C98_command (flags and payload), C98_event_line and C98_command_line. | `C98_applications`, `C98_cal`, `C98_cals`, `C98_pm`, `C98_dm`, `C98_pp`, `C98_event`, `C98_command`, `C98_event_line`, `C98_command_line`, `C98_received`, `C98_sent`, `C98_defaults` |
| C99 | Everything sent is written byte by byte as one specification says, or refused for the reason it gives | proved | `Spec/Writing.lean` is a relation between a packet and its characters, with values as numbers and the duration table, the weekday and the checksum as relations. Every rule is shown to be what the encoder computes, and every packet is shown to have a rule; the two give the equivalence. | `C99_sal`, `C99_report`, `C99_cal`, `C99_packet` |
| C100 | JSON read from the broker is what its text says, and JSON published is read back as what was meant | proved | `Spec/JsonText.lean` is the grammar as one inductive relation between texts and values; the scanner of `Model/JsonText.lean`, modelled after CPython's, is shown sound by induction on its fuel and complete by induction on the grammar. That `json.dumps` is read back follows from the grammar. | `C100_loads`, `C100_one_value`, `C100_bytes`, `C100_not_json`, `C100_duplicates`, `C100_dumps`, `C100_round_trip`, `C100_published` |
| C101 | The example scripts drive exactly the group they are given | proved | The message of a script is shown to be a text of the grammar of C100, so that C60 applies to it. | `C101_on`, `C101_off`, `C101_ramp`, `C101_no_address`, `C101_not_json`, `C101_told`, `C101_listen`, `C101_heard`, `C101_usage`, `C101_example` |
| C102 | All that a client does with all that it receives | proved | `Spec/Session.lean` composes the grammar of messages (C98) with a grammar of texts that raise, the events of a packet and the line with the time into one inductive relation over conversations. The theorems are equivalences between that relation and the model fed with the pieces, for the plain protocol and for the daemon. | `C102_text`, `C102_received`, `C102_sent`, `C102_client`, `C102_protocol`, `C102_daemon` |
| C103 | All that the simulated PCI does with all that it receives | proved | `Spec/ServerSession.lean` is an inductive relation over conversations, on top of the grammar of messages (C98) and of texts that raise (C102). `C103_server` is an equivalence between it and the model fed with the pieces; every derivation is what the model does, and there is always one. | `C103_server` |
| C104 | All that the daemon does with all that happens to it | proved | `Spec/Life.lean` describes topics, payloads down to their bytes, commands, announcements and one step of a daemon as relations; `C104_daemon` and, with `json.loads` itself, `C104_bytes` are equivalences between histories of the relation and of the model. `C104_topic` and `C104_payload` are the equivalences for topics and payloads, `C104_histories` connects the histories to those of C43 and C90. | `C104_payload`, `C104_topic`, `C104_daemon`, `C104_bytes`, `C104_histories` |
| C105 | The serial redirector passes everything on | proved | Turns of the two loops are steps of a machine; induction over the turns, with C40 for the client. | `C105_transparent`, `C105_closed`, `C105_unsent`, `C105_newline`, `C105_setup`, `C105_client` |
| C106 | The redirector converts every newline | partial | An inductive relation of leftmost replacement; the code's split and join compute it; a cut outside newlines commutes with it. | `C106_replaced`, `C106_converted_partial`, `C106_single`, `C106_false`, `C106_round_trip` |
| C107 | A discovery query is answered as a network interface answers it | partial | Case distinction on the first four bytes; the answer is computed by the kernel and compared with the documented layout. | `C107_answer_partial`, `C107_quiet`, `C107_false` |
| C108 | A standard status report is written as one and read back as it was | partial | from C11, C01 and C03 | `C108_contents_partial`, `C108_header_partial`, `C108_false`, `C108_too_long`, `C108_packet`, `C108_decode` |
| C109 | A connection that the broker refuses is not taken for a connection | partial | from C66 | `C109_always`, `C109_false`, `C109_accepted_partial` |
| C110 | Reports from the network keep a TCP connection up and all become messages | partial | from C102 and C64; delivery lemma of C88 | `C110_tcp`, `C110_burst`, `C110_false`, `C110_serial`, `C110_short_partial` |
| C111 | Only documents are saved as documents | partial | Files with their contents, requests with a status and a body or an exception. Induction over the links: each file that is new has the body of the answer for a link with its name. The witness is a 404 page. | `C111_saved_partial`, `C111_available_partial`, `C111_sticky`, `C111_false`, `C111_names` |
| C112 | The command lines of the tools are read as they are documented | proved | A grammar of command lines for any table of options (`Spec/ArgParse.lean`) is proved to be exactly what the model of `argparse` reads (`Lemmas/ArgGrammar.lean`); the theorem of each tool says which of these lines it accepts and what comes out. | `C112_dump`, `C112_graph`, `C112_decode`, `C112_decode_refused`, `C112_fetch`, `C112_pci`, `C112_pci_connects`, `C112_server` |
| C113 | The command line of the redirector is read as it is documented | proved | optparse is modelled as one pass over the words; an inductive grammar of command lines is shown equivalent to it | `C113_line`, `C113_help`, `C113_listens`, `C113_ends`, `C113_starts` |
| C114 | The redirector serves one connection after another | proved | an inductive language of action logs; induction over histories; escape is inverted byte by byte | `C114_readable`, `C114_sessions`, `C114_fresh`, `C114_spy`, `C114_quiet` |
| C115 | A serial port that fails ends the connection | partial | histories after the failure, by induction | `C115_write_partial`, `C115_mute`, `C115_false` |
| C116 | The simulated PCI serves each client as if there were no others | proved | The main program is a fold over the events of all connections with a slot per connection; the part of one connection is projected out by induction over the events and is then described by the specification of C103. | `C116_clients`, `C116_alone` |
| C117 | The daemon logs where and as much as it is told | partial | logging is a state (handlers and level of the root, levels of other loggers); the exact destinations of every record are computed for arbitrary logger names by induction over the name | `C117_false`, `C117_partial`, `C117_setLevel`, `C117_tools` |
| C118 | A PCI that powers up again is configured again | partial | the simulated PCI in its power-up state writes every event without a checksum; the client's decoder takes each such line for an invalid packet or, if the bytes happen to sum to zero, for a packet without commands; composed over streams with Run | `C118_deaf`, `C118_false`, `C118_connect_partial` |
| C119 | A ramp that C-Bus has no duration for is refused | partial | from the exact conditions under which a call raises (C45), and from the search for the rate, which ends with the slowest | `C119_never`, `C119_false`, `C119_slowest_partial` |
| C120 | A lost connection to the broker is made again | partial | who can call the client at all is a function of the sockets and tasks registered with the event loop; an invariant for the states with and without a socket | `C120_never`, `C120_false`, `C120_served_partial`, `C120_callers`, `C120_housekeeping` |
| C121 | The daemon writes nothing to the network but what it is there for | proved | the exact description of each step in C104 is searched for writes: an induction over what a client hears (C102) shows that only the time is written there; the spelling of a command determines its bytes, so that a lighting command can only stem from a message | `C121_writes`, `C121_line`, `C121_lights` |
| C122 | The broker shows the level that a light comes to | partial | what is published is computed event by event (C62) and compared with a light that moves linearly in time; the level at rest is that of the last event about it if no ramp is stopped on its way | `C122_told`, `C122_partial`, `C122_false` |
| C123 | Only the default lighting application is published | proved | the conversation of C102 is searched for publications; each goes back, through the grammar of C98, to the line and the command it was read from | `C123_published` |
| C124 | Every message that is received calls a handler | partial | a valid message, by the grammar of C98, is one of seven kinds; what is called for each follows from C102 | `C124_called`, `C124_partial`, `C124_false` |
| C125 | A command that the PCI refuses is not taken for carried out | partial | From C102 (what is heard) and C104 (what is done in a step): the grammar of a confirmation, the call made for it, and the code carried by the line of the set message. | `C125_told`, `C125_ignored`, `C125_partial`, `C125_false` |
| C126 | When all is quiet the broker shows what the lights are | partial | A transition system around daemonDo (C104); the invariant says that what is on its way to the network is already shown, and what is on its way to the daemon is already done. | `C126_partial`, `C126_false` |
| C127 | A light that is set through one daemon is shown alike by another | proved | C104 for the daemon that gets the message, the grammar of C98 and C102 for the one that is told. | `C127_alike` |
| C128 | Every state that cmqttd shows has been said | partial | The relation of C104 says what each step does; by induction over the history what is in the buffer is the end of all that was received, so C123 for one piece becomes the claim for the history. The exception is a piece larger than the buffer, which is dropped while the buffer is kept: `C128_false` gives a history in which the first half of a line of unit 5 and the second half of a line of unit 0x7D add up, with a valid checksum, to a command that nobody has sent. | `C128_partial`, `C128_unknown_partial`, `C128_false` |
| C129 | Connecting to the broker moves no light | partial | A broker with MQTT's rule for retained messages is put next to the daemon's steps (`Hub`). Nothing that the daemon publishes is on a topic ending with `/set` (as in C67, now for all steps), so by induction what it leaves at the broker never comes back; what connecting writes is computed exactly (`C129_exactly`). | `C129_exactly`, `C129_partial`, `C129_again`, `C129_false` |
| C130 | A light takes the time that it is told to take | partial | The command of a set message is known (C60, C99); the time of a command is that of its ramp code. `C130_taken` computes it for every message; the rest are comparisons of rational numbers. | `C130_taken`, `C130_partial`, `C130_within`, `C130_false`, `C130_fraction_false` |
| C131 | The transition that is shown is the one that the light takes | partial | From C130_taken, which gives the command and the published transition for every message. | `C131_partial`, `C131_otherwise`, `C131_false` |
| C132 | A directory of CA certificates is trusted | partial | False: paho's `tls_set` gives `ca_certs` to `load_verify_locations` as a file. `Model/Startup` carries out the steps of `_main` in a world in which each may fail; `C132_directory` shows what every directory does (the PCI is opened, then an `OSError`, and the broker is never connected), `C132_container` follows it through the entry point and the parser of the command line, `C132_partial` is the case of a file or of Python's store. | `C132_directory`, `C132_container`, `C132_partial`, `C132_false` |
| C133 | A password goes only to a broker that is trusted | proved | `Model/Startup`: all ways in which the start can go (`startup_cases`); `C133_trusted` for connections, `C133_session` for what the client has when the daemon runs. | `C133_trusted`, `C133_session` |
| C134 | The daemon starts completely or ends | proved | `C134_runs` is an equivalence with conditions on the options and the world, `C134_order` compares with the steps when nothing fails. | `C134_runs`, `C134_order` |
| C135 | The variables of the container decide what the daemon does | proved | C135_steps carries the options that C94_options gives through startup_cases and connectBroker; C135_time applies C46 and C73 to the protocol object that the factory makes; C135_names applies C77 to the labels with which the handler was started. | `C135_steps`, `C135_time`, `C135_names`, `C135_unnamed` |
| C136 | A UTF-8 auth file gives its user name and password in every locale | partial | UTF-8 decoding is Lean's own (round trip proved); Latin-1 by counting the bytes of the last character; lines by universal newlines. | `C136_partial`, `C136_ascii`, `C136_latin1`, `C136_false`, `C136_mark`, `C136_daemon`, `C136_undecodable` |
| C137 | The documented docker commands connect as the documentation says | partial | `Model/DockerRun` makes the environment of the script from the settings of the command; C135_steps gives the steps. | `C137_known`, `C137_partial`, `C137_hassio`, `C137_files`, `C137_false`, `C137_last` |
| C138 | A quiet connection to the broker is kept up | partial | `Model/Keepalive` is the client's notion of time. `C138_kept` holds for every keepalive and every pause of `misc_loop`; the monitors `Awake`, `Answers` and `Heard` say what is assumed of the loop and the broker, and what the broker sees. | `C138_kept`, `C138_partial`, `C138_false` |
| C139 | A broker that is gone is noticed | proved | Two phases, before and after the ping (`Silence`), over every history. | `C139_noticed`, `C139_zero` |
| C140 | Every document is saved with its own contents | partial | From C111: what is there under a name comes from a link of that name. | `C140_partial`, `C140_false` |
| C141 | What cmqttd does depends on nothing that it has done before | proved | A simulation between two runs of the relation of C104, carried over to the code's model by C104_daemon; for lights and broker with the network of C126. | `C141_same`, `C141_message`, `C141_twice` |
| C142 | Daemons do not set each other off | proved | Everything a daemon may write (C121) is read as the grammar of C98 says; no event that comes of it makes the handler write. Then induction over histories of the town, with C67 for what is published. | `C142_silent`, `C142_town` |
| C143 | The downloads are what the links refer to | partial | `Spec/Uri.lean` restates RFC 3986: the parts of a reference, how they are written, `remove_dot_segments` with its two buffers, and the resolution of references; the examples of its section 5.4 are checked. `Model/Url.lean` has `urlsplit`, `urlparse`, `urlunparse` and `urljoin`. That both agree is proved by induction on the segments of the path. `Props/Parameters.lean` adds the addresses with parameters after the last segment: the whole address is requested, but what is before the semicolon decides whether it is. | `C143_parameters`, `C143_parameters_followed`, `C143_partial`, `C143_false` |
| C144 | No link keeps the tool from the documents | partial | `downloadAll` is the tool with its addresses as text and with the exceptions of `urllib.parse`. A page whose links can all be read is treated as in `Model/Downloads.lean` (`download_web`), otherwise the tool ends after the terms. | `C144_false`, `C144_partial`, `C144_stops`, `C144_readable`, `C144_plain` |
| C145 | The drawing tells the units apart | partial | `ArrowDrawn` and `NodeDrawn` forget the subgraphs and keep the texts of nodes, as in a DOT file. `C145_arrows` and `C145_nodes` say what the drawing contains for every dump. | `C145_arrows`, `C145_ends`, `C145_nodes`, `C145_partial`, `C145_false` |
| C146 | What dump_labels writes, graph can read and draw, whatever the indentation | proved | A model of the indented writer of the json module; every dump is in the class of values that are written exactly (keys of each object are distinct, by IsDump of C78), so the text is a JSON text of the value by the grammar of C100, and the reader of C100 gives the value back. Reading what open' gave back as a project (C78) and drawing (C79) are composed with it. All characters are shown to be ASCII by induction over the value. | `C146_pretty`, `C146_reads`, `C146_indent`, `C146_file`, `C146_ascii`, `C146_failed` |
| C147 | Lights can be found, operated and watched in Home Assistant | proved | Spec: entities from configuration topics and messages (abbreviated names, the tilde), the messages of the services turn_on and turn_off, how a state message is taken. C66 gives what is published, and each message is turned into its entity; identities differ by the injectivity of decimal numerals. A service call is written by the JSON writer, read back by C100, interpreted by the rule of C60, and its line and its messages are computed in the three cases of C130; reports of other units go through C126's account of a heard line; a history is an induction over its steps. | `C147_found`, `C147_identities`, `C147_operates`, `C147_history`, `C147_last` |
| C148 | A set message that is delivered more than once does no harm | proved | Spec: what may be received of a sequence of messages (the order of section 4.6 of MQTT 3.1.1), what a broker keeps on a topic. By C141 what comes of each message does not depend on the others; the last of what comes of them for one light, or on one topic, is shown to be the same by induction over the delivery. | `C148_redelivered` |
| C149 | After a start the broker shows what the lights are | partial | The street of C126 with stops and starts: a stopped daemon is not told of commands that it has not been told of yet, a started one is a fresh object for which connection_made and on_connect of the model are run. A note is kept of the lights that were missed; leaving those out, every step is one of C126's steps, whose invariant carries over. That a start shows nothing follows from the messages of C66. C149_stays: whatever is done to a light while the daemon is away, the same is shown until something is done to it while the daemon is there. | `C149_partial`, `C149_stays`, `C149_false` |
| C150 | On a serial line an unreadable line costs at most 512 characters of reports | partial | C36 gives the error, C42 what a blocked buffer does with each piece, C64 that whole lines are heard from an empty buffer; induction over the pieces. The witness is a cycle of three pieces of 17 reports that ends where it began. | `C150_partial`, `C150_forever`, `C150_false`, `C150_stays` |
| C151 | What a daemon is made to do is bounded by what it receives | proved | induction over the derivation of the conversation (C102, grammar of C98): a command takes at least two bytes, a message at least twelve characters more; the buffer is what has not been spent. | `C151_load` |
| C152 | A report from which characters are lost is not taken for another | partial | the digits of a line count for 16 or 1 times their value by position; an even loss keeps the positions, so the sum of what is left differs by what the lost digits count for. C32 says that only lines that sum to zero become messages. | `C152_partial`, `C152_command_partial`, `C152_one`, `C152_two`, `C152_missed`, `C152_false` |
| C153 | A packet that was received can be sent on | partial | The grammar of C98 is inverted: whatever is read as a command or CAL is well formed and already on the grid of values that can be sent, so that the round trips of C25, C26, C28 and C30 give the same packet. For lighting lines the writing of C99 gives the very characters. | `C153_partial`, `C153_command_partial`, `C153_exact`, `C153_false`, `C153_zero` |
| C154 | What is dropped from a message is warned of | proved | `C154_warnings`: the list of warnings is the one of the relation `Warns` of `Spec/Warnings.lean`, for every application and all data. `C154_results`: the decoders with warnings have the results of the ones without. `C154_silent`: no warning and no exception iff the data are commands throughout, each reported. `C154_received`, `C154_sent`: the warnings of `decode_packet` for every point to multipoint packet it returns, with those for checksum and confirmation code. `C154_message`: the same for the arguments the client uses. `C154_only`: in strict mode there are no others. `C154_direct`: of lines for the PCI itself there are only those for the confirmation code and, unless they begin with `@`, the checksum. | `C154_warnings`, `C154_results`, `C154_silent`, `C154_received`, `C154_sent`, `C154_message`, `C154_only`, `C154_direct` |
| C155 | Documents are saved under the names that their addresses spell | proved | `C155_spells`: the specification `Spells` gives every ASCII text exactly one sequence of octets. `C155_unquote`: `unquote` decodes that sequence. `C155_other`: other characters are kept in their place. `C155_documents`: the file of each document of a page has that name. | `C155_spells`, `C155_unquote`, `C155_other`, `C155_documents` |
| C156 | Commands that are sent at once all reach a simulated PCI | partial | C55 gives one direction for all choppings that fit; that nothing else is accepted follows from the two refusals of `data_received`. The witness is fifteen lamps that are switched on at once: 261 characters. | `C156_exactly`, `C156_burst`, `C156_partial`, `C156_false` |
| C157 | A dump is laid out as the option asks | proved | `Spec/Layout.lean` says what a text with one item per line is, for any JSON value and independently of how it is written; that `json.dump` writes one is proved by induction on the value. | `C157_layout`, `C157_compact` |
| C158 | The text of a packet tells what was received | partial | `Model/Repr.lean` has the texts. `C158_partial`: packets of equal text say the same (`SaysTheSame` of `Spec/Repr.lean`), for all that is received but temperatures and network variables; every text is shown to be readable whatever is behind it. `C158_false`: twenty and twenty-one degrees have the same text. `C158_something`: no packet is printed as `None`. `C158_untold`: the text of a report depends neither on its sender nor on the bridges. | `C158_partial`, `C158_attributes`, `C158_something`, `C158_false`, `C158_untold` |
| C159 | The log tells what was received | partial | `Log.event` and `Log.serverEvent` are injective as far as levels are whole numbers, which all received ones are; the lines of a packet that begin with `recv: ` are the texts of the events of the packet (C47) or of the calls among the effects of the simulated PCI. `C159_claim` says that the percentage of a ramp is at most 100; `C159_false` refutes it with level 255, and `C159_percent` says what is written. | `C159_event`, `C159_server_event`, `C159_client`, `C159_client_calls`, `C159_server`, `C159_confirmed`, `C159_received`, `C159_partial`, `C159_percent`, `C159_false` |
| C160 | What the simulated PCI holds back | partial | A relation between the lengths of the queue before and after and the trace is shown to be kept by every method; the length after is twice the number of clock updates since something was last sent. | `C160_held`, `C160_partial`, `C160_grows`, `C160_false` |
| C161 | The log tells all bytes that pass | partial | The line of a piece is that of the buffer with the piece at its end, and the text of bytes can be read back (C158): by induction two histories with the same lines agree piece for piece. The lines of `_send` for bytes are told from those for packets since no text of a packet begins with `b`. | `C161_unchanged`, `C161_received_partial`, `C161_sent`, `C161_packet`, `C161_before`, `C161_sent_inj`, `C161_server`, `C161_false`, `C161_too_long` |
| C162 | Two neighbouring characters that are changed are always noticed | proved | what digits count for in the sum (C152); digits of two neighbours are told apart modulo 256 wherever the bytes begin | `C162_reports`, `C162_added`, `C162_commands`, `C162_limits` |
| C163 | Lights carry the names of the last start | proved | C66 for the messages of a connection, the broker of C129, and a trace invariant: everything else is published on topics of states | `C163_names`, `C163_others` |
| C164 | The time on the network does not run backwards | proved | each constructor of the independent description of the daemon's life (`Does`, C104) is shown to tell the readings between its two counts; a line tells one time only (`clockLine_stamp`), so the order holds for whatever times the lines can be read as | `C164_readings`, `C164_fresh`, `C164_forward` |
| C165 | A report is published when its last character arrives | proved | a beginning of a line is waited with (from the stability of `handle_data`, C40), so what has been processed is the lines that are whole; `C165_last` says that the last piece of a report is the one that gives its messages | `C165_prompt`, `C165_last` |
| C166 | Lights do not influence each other | proved | The spec says when a line or a message is about another light (a lighting command with that group address, or a message on the state topic of that address), what is left without these, and when a history is another one without some messages. Over the relation Lives of C104 a message that is not for the light does only things about others and leaves a state that agrees in all but the counter of codes (C141); the rest is C141's lemma that agreeing states do the same. | `C166_own`, `C166_leaves`, `C166_apart`, `C166_order`, `C166_reports`, `C166_whole` |
| C167 | What is shown of a light has been announced | proved | Induction over the histories of C104 with what has been published so far; the groups of received commands are bytes by the grammar of C98. | `C167_announced`, `C167_listens`, `C167_silent` |
| C168 | The password file changes nothing but the password | proved | C168_startup relates two runs of the start that differ only in the file; SameSteps allows only steps that give the client its credentials to differ. C168_unreadable: a file that cannot be decoded. | `C168_startup`, `C168_unreadable` |
| C169 | A project file changes names only | proved | C169_labels relates two runs step by step; Renamed allows only the name field of a configuration of a light whose label differs to be different. C169_same: labels of other groups make no difference. C169_start: the start. | `C169_labels`, `C169_same`, `C169_start` |
| C170 | Keeping time does not disturb the lights | proved | C170_timeless, on top of C104 (every step of the daemon is described by a relation that does not read the settings). C170_kept: what counts as something else. C170_left: what is left is well defined. | `C170_left`, `C170_kept`, `C170_timeless` |
| C171 | A damaged report costs only itself | partial | The damaged line is malformed (the sum of its bytes is off by less than 256, or it has a character that is no digit), or two lines if it begins with a confirmation code; so the stream is one of lines for known packets (C64). | `C171_partial`, `C171_tcp_partial`, `C171_fatal`, `C171_false` |
| C172 | The next report of a light puts right what damage left wrong | proved | By C64 and C171 both executions publish the messages of the reports that come through; those about the light are the same from the undamaged report on, which leaves a message on both topics, and only the last one is kept. | `C172_others`, `C172_healed` |
| C173 | A serial line and a socket make a difference only after an exception | proved | By induction over the pieces, with what was shown about a socket in C110; with C171 it follows that damaged reports cost only themselves over a serial line. | `C173_same`, `C173_more`, `C173_after`, `C173_damaged` |
| C174 | A report that comes more than once does no harm | proved | By C64 and C171 both executions publish the messages of the reports that come through; the last message on each topic is the same (the induction of C148). | `C174_repeated`, `C174_either` |
| C175 | A damaged command costs only itself | partial | a changed digit either is no digit any more or makes the checksum wrong; a wrong confirmation code is rejected by strict decoding | `C175_partial`, `C175_code_partial`, `C175_backslash_partial`, `C175_lost`, `C175_false` |
| C176 | Commands that arrive are carried out whatever becomes of the others | proved | each line is one step of a run of the receiver: a command is carried out and confirmed (C55), a damaged one is passed over (C175); runs are indifferent to the pieces in which they arrive | `C176_others`, `C176_which` |
| C177 | The client is told of exactly those commands that were carried out | proved | as C176, with all that the simulated PCI writes followed back to the client, where each pair of characters is decoded as a confirmation | `C177_answers`, `C177_known` |
| C178 | A set-up that is confirmed is in force | partial | line by line: a reset puts the options back, the first two commands change none of them, and the last sets them all; a line with a character that is no digit is passed over | `C178_partial`, `C178_confirmed_partial`, `C178_false`, `C178_misled` |
| C179 | A damaged confirmation costs only itself | partial | a code and any other character are taken together for a confirmation, so that what follows is read from the same place as if it were not damaged; if the first character is no code any more, all up to the next end of a line is one line with a character in it that is no digit | `C179_partial`, `C179_swallowed`, `C179_published`, `C179_false` |
| C180 | Confirmations and notifications change nothing that cmqttd does | proved | a packet for a remark leaves the state alone and only calls its handler, so leaving all of them out leaves everything else as it is | `C180_heedless`, `C180_history` |
