{
 "C13": "False of the code: reports of 29 to 252 bytes are encoded without an exception, with a length field that is too small (C13_overlong_misframed for all of them, C13_false for a concrete one decoded as a different report). The partial theorem covers the other sizes: up to 28 bytes the length field is right, from 253 bytes ValueError is raised.",
 "C20": "False of the code: an update of an unknown clock variable skips its length twice, so messages behind it are lost (C20_false). The partial theorem states what happens: no exception, 2n bytes skipped instead of n, messages before it unaffected, nothing lost if nothing follows.",
 "C27": "False for address byte 0, which is reported as no address (C27_false). Proved for every buffer (C27_every_partial): a message that carries a source has the one that the third and fourth characters spell, except that 00 is no source.",
 "C31": "False: of the 48 lighting application addresses only 0x38 works (C31_false). The partial theorems settle all 48, for event lines and for commands: 0x38 is decoded, the other 47 give an InvalidPacket whenever the packet carries at least one command.",
 "C32": "Lines starting with '@' carry no checksum and are excluded. Wrong checksums and single changed bytes are covered in both directions. Damage to one character of the text: from the PCI the line becomes an InvalidPacket (C32_single_character; the first character must not become '+', '!' or a confirmation code); towards the PCI it never becomes another command (C32_single_character_command; a CR in the middle is excluded, since it ends the command early).",
 "C33": "False for bare CALs on the server side (C33_false: 10 bytes given, 13 reported). The partial theorem covers every other result; C33_cal says what the position is for bare CALs: the length of the decoded CAL is added to the end of the line, whether the buffer reaches that far or not.",
 "C36": "False in both directions (C36_false). The partial theorems characterise exactly the inputs on which decode_packet raises, in strict and in lenient mode.",
 "C41": "False for bare CALs on the server side (C41_false: a direct RECALL command swallows what arrives together with it). The partial theorem covers all streams in which the simulated PCI meets no bare CAL and no chunk overflows the 256-byte buffer. C41_swallowed says exactly what is lost: as many bytes behind the line as the CAL has.",
 "C42": "False: a base16 line of odd length, or 00, raises and stays in the buffer, so everything behind it is blocked until the buffer overflows (C42_blocked, C42_blocked_server, C42_false). C42_client_line and C42_server_line split all lines without restriction on the options: an unreadable line (C36) blocks, any other is consumed and what is behind it handled as if it had come alone; C42_client_goes_on and C42_server_skips are the claim for every malformed line that is not unreadable.",
 "C43": "For the client with its own event handlers, over any history of calls, connections, disconnections and received data of an object whose counter starts at 0.",
 "C44": "Also covers identify and clock_datetime. Group addresses and durations are Python ints; the day of the week is that of the Gregorian calendar.",
 "C45": "Also covers identify and clock_datetime. datetime.now() may have been called by a clock call that raises. C45_kind names the exception.",
 "C47": "C47_packet is for arbitrary handlers that do not call other handlers; C47_stream for the client's own handlers, a connected client, and chunks that fit the buffer; C47_short says which do.",
 "C48": "For a connected client.",
 "C73": "What the rest of the program does while the task sleeps is arbitrary as long as it keeps the client connected, sends no clock updates itself and does not raise into the task.",
 "C51": "For a connected object and random.randint(1, 100) within its range. C51_confirmed needs the send queue to contain lines only, which C51_queue_lines proves for every history. The set of commands the simulated PCI handles is spelled out in Accepted / Understood.",
 "C53": "For receptions that do not overflow the buffer (C39 covers overflow), a connected object and random.randint(1, 100) within its range. The mode of each message is that in which it is found, so a message that switches to smart mode is itself still echoed.",
 "C54": "The length field is wrong (C54_false; C54_length: one more than the number of bytes it should count, for all three blocks). Proved without it: blocks, addresses, checksums and contents of the table.",
 "C58": "False of the code: every float level, including the default 1.0, raises without effect (C58_false, C58_default). The partial theorem covers integer levels 0..255, which the documentation does not mention.",
 "C55": "Also covers the clock calls; the server's receive buffer is empty at the start (a new connection), everything else about it is arbitrary. identify is excluded: a point-to-point command.",
 "C56": "Also covers ramp events with integer levels. C56_answers: errors and confirmations, which are not events of the network.",
 "C57": "False of the code: the first event is never delivered (C57_false, for every event and every chopping), because echo and confirmations carry no CRLF and merge with it. C57_later_partial: all the later ones are delivered.",
 "C49": "False of the code: CBusHandler.on_clock_request ignores the option (C49_false). The partial theorem covers packets without a clock request, in response to which nothing is written.",
 "C59": "For every table of Unicode digits, white space and case that is right about ASCII. C59_inverse covers the topics of all integers; other topics with odd spellings of the number (white space, sign, underscores) are also accepted by the code.",
 "C60": "The partial theorem leaves out a negative brightness in an ON message, see C61 (C60_false). C60_every says that every JSON value is a message or raises a known exception (C60_raises), C60_ignored covers the other topics and payloads, C60_disconnected a lost connection. json.loads is an arbitrary function.",
 "C61": "False of the code: a negative brightness becomes the float 0., which cannot be encoded, so on_message raises and nothing happens (C61_false for a concrete message, C61_negative for all). The partial theorem covers brightness from 0 up and every transition.",
 "C62": "C62_packet is for a connected C-Bus client; before the connection to the broker nothing is published.",
 "C63": "False of the code: a ramp to level 0 publishes state ON and binary sensor OFF (C63_false). The partial theorems cover every other event and set message.",
 "C64": "For chunks that fit the receive buffer; C64_short says which do.",
 "C65": "For set messages with a brightness that is not negative (see C61). C65_simulated_pci composes it with the simulated PCI of pciserverprotocol.py.",
 "C66": "C66_labels_cosmetic: labels change only names.",
 "C67": "Covers everything published by on_connect, on_message and data from the PCI.",
 "C72": "The file is its text after universal newline translation.",
 "C69": "The project is any result of reading an XML tree (C69_file). What str.lower, int and str.strip do outside ASCII is an arbitrary table.",
 "C70": "False of the code: the text of an empty element is None, which becomes the text 'None' and is used as the label (C70_none for every such file, C70_false). The partial theorem covers names that are present but blank.",
 "C74": "False of the code in smart mode: a request for the presence of units raises NotImplementedError and its line stays in the buffer, blocking everything behind it (C74_false, C74_stuck). The partial theorem: everything else that decode_packet understands is consumed in both modes. Lines on which decode_packet itself raises are C42.",
 "C75": "False of the code (C75_false): an open file that is XML is never read, since looking for an archive has moved to its end. Proved for archives, and for XML given by name or in a pipe; C75_unread says that the rest is never read. The ZIP and XML parsers are not modelled: a file is the member list or the tree they give.",
 "C77": "False of the code (C77_false): an XML file for --project-file stops the daemon with a ParseError. Proved for archives with any networks, applications and groups in the tree of the XML in them (and XML in a pipe).",
 "C78": "argparse, the JSON text, XML and ZIP are not modelled. int(text, 16) is Python's (including its prefix, sign and underscores), for every table of Unicode digits that is right about ASCII. C78_file is the exact output for whole files with distinct addresses; C78_dump for any project structure.",
 "C79": "pydot is not modelled: the graph is the nodes and edges it is given. Units with the same name share a node in the drawing.",
 "C80": "False of the code: a node 'GA 255' is added for every network with an unused channel (C80_false); only the arrows are left out.",
 "C81": "False of the code: the output file is opened for writing before the dump is made, so a dump that fails leaves it empty (C81_false).",
 "C82": "Reading the options is C93; connections that fail and what TLS does with its arguments are C133 and C134.",
 "C83": "False of the code: the option is split at the first two colons, so that an IPv6 address gives another host and port or an exception (C83_false; C83_colon for every such text). The partial theorem: every host without a colon.",
 "C84": "False of the code: type=bytes refuses every argument in Python 3, so the tool always ends with a usage message (C84_refused, C84_false). The partial theorem is about pretty_packet.",
 "C85": "The HTML parser and urllib are not modelled: a page is its start tags. Requests that fail are C111.",
 "C86": "False of the code: the name is unquoted after splitting at slashes, so an encoded slash leads out of the destination (C86_false, C86_anywhere). The partial theorem: names that have no slash when unquoted.",
 "C87": "paho's client is not modelled: the events are the calls it makes and the results of loop_misc. C87_raises: over all histories, in order or not, only closing a socket before any was opened raises.",
 "C88": "Pieces of up to 209 bytes; identify is left out, since the simulated PCI never replies to it. After clock updates the simulated PCI makes up events of its own, which the client is told of as well.",
 "C89": "As C88. The daemon is connected to the broker from the start. A message that switches on with a negative brightness counts as asking for nothing (C61). C89_every_message: every payload on every topic is covered.",
 "C90": "False of the code: without a future, which is optional, connection_lost raises AttributeError (C90_false). The partial theorem: objects with a future, over every history of the daemon. C90_silent holds in full.",
 "C92": "False of the code: the default bounds are Ellipsis, so that index(x) always raises TypeError (C92_always, C92_false). The partial theorem: both bounds given.",
 "C93": "The options are listed in Spec/Manual.lean as the help texts have them; argparse itself is not in the repository and is modelled after Python 3.8. An argument -- in the same word as its option (--tcp=--), which argparse turns into an empty list, is outside the claim.",
 "C94": "Stated through the parser of C93, so from variables to parsed options.",
 "C95": "False of the code: MQTT_SERVER='mqtt --broker-disable-tls' disables TLS with MQTT_USE_TLS=1 (C95_false). Proved for all values in which no word begins with --broker-d.",
 "C96": "Every property about topics, messages, project files and dumps that mentions a number in a text is stated with these descriptions.",
 "C97": "Exceptions are pinned exactly; which labels and dumps succeed is C69 and C78.",
 "C98": "Which exception is raised for a buffer outside the grammar is C36.",
 "C99": "Dates and times in clock updates are assumed to be ones Python's datetime admits; anything else in the arguments is arbitrary.",
 "C100": "Floats are a parameter (what float() and repr make of them); values with floats need that Python reads the text of a float as that float. CPython's limits on nesting and on the number of digits are not modelled.",
 "C101": "The Mosquitto programs are assumed to deliver what they are given. An argument of cbus_ramp that is not a number but leaves the message JSON can change its meaning (example).",
 "C102": "Equivalences with an independent relation over whole conversations; faults are characterised in both directions of the line.",
 "C103": "Equivalence with an independent relation over whole conversations.",
 "C104": "Equivalence with an independent relation over histories. That bytes arrive only over a connection is what asyncio guarantees.",
 "C105": "The optparse parser, the spy and exceptions of the serial port are not modelled. Newline conversion is C106.",
 "C106": "False of the code, as its own comment says: a CR and an LF that arrive in different turns are not converted (C106_false). Proved for all streams in which no newline is cut, which includes all streams with newlines of one byte.",
 "C107": "False of the code: the announced port is 10017 (0x2721), not 10001 (0x2711), see C107_false. All else is proved.",
 "C108": "False of the code for more than 112 group states: the length runs into the bits of the kind and the CAL announces an extended status report (C108_false). Proved: contents and packet for all states, announcement and length field up to 112 states, decode_cal on all bytes.",
 "C109": "False of the code: the return code is ignored (C109_always, C109_false). The partial theorem: accepted connections.",
 "C110": "False of the code: a piece of more than 256 characters raises, which over TCP closes the connection and ends the daemon (C110_burst for all of them, C110_false). C110_tcp says for everything received when the daemon ends. The partial theorem: pieces that leave room for an incomplete line.",
 "C111": "False of the code: the status is not looked at, so an error page is saved under the name of the document (C111_false), and no later run replaces it (C111_sticky). The partial theorems: everything else, for every answer; and the claim itself if the server has everything it is asked for.",
 "C112": "The options are listed in Spec/Manual.lean as the help texts have them; argparse itself is not in the repository and is modelled after Python 3.8. An argument -- in the same word as its option is outside the claim.",
 "C113": "The options are listed in Spec/Manual.lean as the help text has them; optparse of Python 2.7 is modelled from its documentation and source; how it reads numbers is an arbitrary function. What serial.Serial makes of its settings is not modelled.",
 "C114": "Ctrl-C during the second in which the reader is waited for is taken to end the program at once.",
 "C115": "False of the code: the exception of a failed read ends the reader thread only, self.alive stays true, and the client is never told (C115_mute for all later turns, C115_false). The partial theorem: a failed write ends the program.",
 "C116": "What random.randint returns is arbitrary for each connection. An exception in data_received closes only its own connection, which is what asyncio's transports do.",
 "C117": "False as claimed: the file is never written and nothing goes to stdout (C117_false). C117_partial says exactly what is written where for every logger and level; C117_tools the same for the other two programs.",
 "C118": "False as claimed (C118_false); C118_deaf: nothing reaches any client, which does nothing. C118_connect_partial: a PCI that has powered up before the client connects is configured.",
 "C119": "False as claimed: it never raises because of the duration (C119_never). C119_slowest_partial: every longer ramp does exactly what the ramp of 1020 seconds does.",
 "C120": "False as claimed (C120_false); C120_never: once lost, the state never changes again. C120_served_partial: until then the socket is read and the housekeeping task runs. Of paho-mqtt it is assumed that it opens sockets in connect and reconnect only.",
 "C121": "As C104: bytes arrive only while connected. What the command for a group is, given the payload, is C104.",
 "C122": "False: a terminate-ramp event is not handled by cmqttd (a TODO in the code), so that the broker shows for good the level that the stopped ramp would have reached: C122_false. C122_told says exactly what is shown; C122_partial is the claim for histories in which no ramp is stopped on its way. The light is modelled with linear ramps that take the event's duration; the daemon is connected to the broker throughout.",
 "C123": "That such a line is always published is C64. The client is connected, as it is when bytes arrive.",
 "C124": "False: on_mmi, on_reset, on_lighting_label_text and on_pci_power_up are never called; a status report is the witness of C124_false. C124_partial says exactly for which messages nothing is called: power-up, point to point, device management, invalid ones and those to all units with no commands but temperatures, enable commands and status requests. C124_called: what is called for each.",
 "C125": "The claim is false (C125_ignored for every refusal, C125_false with a witness). C125_partial: the code told to on_confirmation is the code of the line written for the message. C125_told: nothing else happens.",
 "C126": "The claim is false (C126_false, with the history). C126_partial: it holds as long as nothing crosses. Refused commands (C125) and stopped ramps (C122) are claims of their own: here the PCI puts every command on the network, and lights go where they are told to.",
 "C127": "C127_alike. The line from the PCI is any that spells the command with a source address.",
 "C128": "False: a piece of more than 256 bytes is dropped with a ValueError, but what is in the buffer stays, so that the first half of one line is joined with the second half of a later one: C128_false. C128_partial: the claim if no piece received before was larger than the buffer. C128_unknown_partial: then nothing is shown of a light of which nobody has said anything, whatever reports are received (the daemon does not ask for the state of the lights either, see C121).",
 "C129": "False: on_message does not look at the retain flag, so a command that another client has published with it is carried out anew at every connection: C129_false. C129_exactly: what is written then is exactly what the kept messages on set topics ask for. C129_again: they stay until someone leaves others there. C129_partial: the claim if nobody else leaves messages on set topics. The broker is modelled after MQTT 3.1.1 (3.3.1.3) with exact topics, in which all subscriptions of cmqttd are.",
 "C130": "False twice: the transition of a message that switches off is ignored (C130_false), and fractions of seconds are cut off before a time is looked for (C130_fraction_false: 4.5 becomes 4, 0.5 becomes none). C130_partial: the claim for messages that switch on or dim, in whole seconds. C130_within: with fractions less than a second is lost. C130_taken: what time any message gets.",
 "C131": "False: the time that was asked for is published, not the one that the ramp command has (5 seconds are shown for a ramp of 8, an hour for one of 17 minutes): C131_false. C131_partial: true for the sixteen times of C-Bus and for switching off. C131_otherwise: false for all others.",
 "C132": "False of the code: a directory is taken for a file and the daemon ends with OSError (C132_directory for every directory, C132_container for the container). The facts about paho-mqtt 1.5.0 and ssl are assumptions, listed in Model/Startup.",
 "C133": "paho-mqtt 1.5.0 and ssl as described in Model/Startup (certificates are required and host names are checked by default).",
 "C135": "Plain values only (no spaces, quotes or patterns: Simple), as in C94; with the names of project files that the reader understands (installationXml), as in C77.",
 "C136": "False of the code: FileType('rt') opens the file with the encoding of the locale. C136_false has a password with an umlaut in a Latin-1 locale. C136_partial: in a UTF-8 locale; C136_ascii: an ASCII file in every locale; C136_latin1: in Latin-1 exactly the ASCII names are right; C136_mark: a byte order mark becomes part of the user name; C136_daemon, C136_undecodable: the same for the start of the daemon.",
 "C137": "False: the third command sets BROKER_USE_TLS=0, which the script does not know (it is MQTT_USE_TLS), so TLS is used and a broker without TLS is not reached (C137_false, C137_hassio, hassio_plain). C137_partial: the first two commands. C137_known: only the seven variables count. C137_last: of two settings of a variable the last one counts.",
 "C138": "False for a keepalive of one second (C138_false). C138_partial: a keepalive of at least twice the pause of misc_loop. paho-mqtt 1.5.0 as described in Model/Keepalive.",
 "C139": "paho-mqtt 1.5.0 as described in Model/Keepalive.",
 "C140": "False for two documents of the same name (C140_false); C140_partial: every document whose name no other one has and that was not there before.",
 "C141": "C141_same: whole histories. C141_message: one message, in any two states. C141_twice: among the lights of C126, the same message twice in a row. As in C104 bytes arrive only over a connection.",
 "C142": "C142_silent: one daemon, any line. C142_town: histories of any number of daemons. Lines are heard whole (when the receive buffer is empty). The network is the specification Overheard: a command for the network reaches the others with the sender's address in it; resets and settings stay with the PCI.",
 "C143": "False for relative references with empty segments (C143_false). C143_partial: all references without parameters, double slashes, empty queries, dots after an authority, and `https:` without an authority. C143_parameters and C143_parameters_followed: what comes of absolute addresses with parameters, which C143_partial leaves out.",
 "C144": "False: a link with a single bracket raises ValueError before anything of the page is downloaded (C144_false, C144_stops). C144_partial: pages whose links can be read; C144_readable: every link of ASCII characters without brackets can be.",
 "C145": "False for units of the same name (C145_false: a panel in each of two networks). C145_partial: units that share their name only with units of the same groups; C145_arrows, C145_nodes and C145_ends say for every dump what is drawn. Ports (names with colons) are pydot's.",
 "C146": "The grammar of JSON texts (Spec) is independent of writer and reader.",
 "C147": "Home Assistant is a specification written from its documentation. A report of a ramp to level 0 is shown as on with brightness 0, as cmqttd says ON with it.",
 "C148": "Messages only; commands of other units that come in between are C126.",
 "C149": "The claim is false (C149_false, with the history). C149_partial: true of the lights that were not missed; C149_stays: the others stay as they were shown. A daemon is started only when nothing that another one left with the PCI is on its way.",
 "C150": "False of the code: when the buffer overflows the piece goes with it, and what follows it begins within a line, which again cannot be read. C150_forever: the reports may be lost in this way without end (C150_false). The partial theorem: pieces of whole lines. C150_stays: the connection is never given up. That a serial port goes on after an exception is pyserial-asyncio and the event loop, modelled in Model/Serial.lean.",
 "C151": "On a serial port, where an exception ends nothing; over TCP what happens is a part of it. Messages are counted, not their length. For a clock within the years of datetime, as in C102.",
 "C152": "False of the code: the checksum is a sum, so lost bytes that sum to zero are not missed, for example a byte 00: of a report that group 1 goes to level 0 and group 5 is switched on, two zeros are lost, and level 121 is published for group 1 (C152_false). The partial theorem: it happens only if an even number of characters is lost that count for zero modulo 256; C152_missed: then the remainder passes the checksum. One lost character is always noticed (C152_one), two unless both are zeros (C152_two). C152_command_partial: the same for the digits of a command to the PCI.",
 "C153": "False for messages that come through bridges (encode raises NotImplementedError, C153_false) and for events from source 0 (written without a source and then read as something else, C153_zero). Proved for all other messages, for events (C153_partial) and for commands with their confirmation code (C153_command_partial).",
 "C154": "A warning is a call of `warnings.warn`; which of them Python shows is a matter of its filter and not modelled. A variable of the clock that is not known is skipped with more data than belong to it (C20): there is one warning for both.",
 "C155": "The decoding of octets as UTF-8 is a parameter of which only ASCII is assumed. Names with an escaped slash are the subject of C86.",
 "C156": "False of the code: a piece of more than 256 characters closes the connection and nothing of it is carried out (C156_burst for all of them, C156_false). C156_exactly says for every chopping when all is carried out; the partial theorem: all at once if it is not more than 256 characters.",
 "C157": "json.dump's iterencode is modelled in Model/DumpText.lean. With 0, which json.dump would write with line ends, the program writes one line.",
 "C158": "False for TemperatureBroadcastSAL and EnableSetNetworkVariableSAL, which have no __repr__: their text is the name of the class and an address in memory, whatever the temperature. Proved for all other packets. The text of a point to point packet leaves out its source address and its hops (C158_untold), which the statement does not ask for.",
 "C159": "All but the percentage: the simulated PCI multiplies a level from 0 to 255 by 100, so that full brightness is logged as 25500.00%; its documentation says levels are from 0.0 to 1.0. C159_confirmed also tells from the log which packets are confirmed. The lines of the bytes themselves are in C161; time and level of the records are not modelled.",
 "C160": "False of the code (C160_false): a clock update without a confirmation code leaves two packets in the queue and nothing empties it, so n of them leave 2n. What is true (C160_held, C160_partial): the queue holds two packets for each clock update since something was last sent and none besides, so nothing once something is sent after the last clock update, as after each confirmed command.",
 "C161": "All of it for a client as long as no exception ends the connection, and for each first packet of a simulated PCI; the claim is false of what the simulated PCI held back, which is written without a line, and of pieces that are refused for their length (C161_false, C161_too_long). C161_packet: all the lines of one _send, in order.",
 "C162": "C162_limits: with three characters (the outer two changed) another message can come out, and with an end of a line in the middle a shorter one.",
 "C163": "The broker is modelled after MQTT 3.1.1 (3.3.1.3). The bytes of a payload are a parameter that is not empty for JSON objects.",
 "C166": "C166_own shows that a command for the light itself and the messages about it are never counted as being about others. For the reports, C166_reports builds on C64. C166_whole has both at once: histories that differ in messages for other lights and in reports about them, where every piece received is made of whole reports. C166_order: two messages for different lights may be exchanged.",
 "C167": "C167_announced: states. C167_listens: commands. C167_silent: without a broker.",
 "C171": "False as stated: if the first character becomes `+` or `!` then it is taken for a notification of its own, and the rest of the line is an odd number of digits, over which the decoder raises: it stays in the buffer, and over TCP the connection is lost. Proved for every other change.",
 "C172": "Without the two characters of C171, which end the stream.",
 "C173": "What the transports do with an exception is the behaviour of asyncio and pyserial-asyncio as described in `Model/Tcp.lean`.",
 "C174": "About what the broker keeps in the end; in between the states of the repeated reports are published again.",
 "C175": "False as stated (C175_false): with the confirmation code changed to another one the command is carried out and the wrong code confirmed; with `~` for the backslash the interface is reset; with `?` or a CR for a digit, or a digit for the code or the backslash, what is left raises and the next command is not carried out (C175_lost). Proved for every digit changed to anything but a CR or `?` (C175_partial), for the code changed to anything but another code, a digit, a CR or `?` (C175_code_partial), and for the backslash changed to anything but `@`, `~`, a digit, a CR or `?` (C175_backslash_partial). The backslash changed to `@`, a CR or `?` is not treated.",
 "C176": "Damage to the backslash, the confirmation code or the CR, and digits that become a CR or `?`, are excluded: see C175_lost.",
 "C177": "Calls for lights only: the simulated PCI follows a change of the clock with reports at random. The way back is undamaged here; for damage there see C171 and C172.",
 "C178": "False as stated (C178_false): the set-up has no checksums, so that a digit that becomes another is not noticed; `A3300049` for `A3300059` is confirmed and leaves the interface in basic mode. `A3410038` for `A3210038` turns checksums on, after which the rest of the set-up is refused (C178_misled). Proved for lines that are lost or of which a digit becomes anything that is no digit (C178_partial, C178_confirmed_partial). That these are the lines that the client writes is C46.",
 "C179": "False as stated (C179_false): when the code becomes a character that is none, such as a digit, the confirmation is taken for the beginning of a report and takes all confirmations behind it and the next report with it. Proved while the first character is still a code (C179_partial), which also says what the client is told of the damaged ones: a success only if the second character is a full stop, for whatever code the first has become; it has no means to tell. Otherwise C179_swallowed says how much is lost: that confirmation, those that come at once behind it and the next line, which may be a report, damaged or not, and nothing behind that. C179_published: what the daemon publishes when reports (C171) and confirmations are damaged in one stream.",
 "C180": "C180_heedless: what arrives, in any pieces. C180_history: every history while the PCI is connected, with messages from the broker and times to tell, each line from the PCI in one piece."
}