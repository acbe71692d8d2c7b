{
 "C01": "`Common.addChecksum`; sum of bytes mod 256, by arithmetic",
 "C02": "modular arithmetic: replacing one summand changes the sum mod 256",
 "C03": "induction on the byte string over the base16 model",
 "C04": "decision logic",
 "C05": "decision logic over the 16-row table with a symbolic duration",
 "C06": "table facts plus C05's characterisation",
 "C07": "finite check over all residues lifted to all integers",
 "C08": "finite check over the whole 256x16 space by kernel evaluation",
 "C09": "list lemmas about `set`",
 "C10": "induction on the list of levels",
 "C11": "induction on bytes / on blocks of four states",
 "C12": "C10/C11 plus framing lemmas, arbitrary suffix",
 "C13": "false of the code; the misframing is proved for every size from 29 to 252, correctness for all others",
 "C14": "per-CAL framing lemmas with arbitrary suffix",
 "C15": "induction on the CAL list using C12/C14",
 "C16": "induction on the SAL list, append form",
 "C17": "same induction with arbitrary suffix",
 "C18": "induction on the SAL list; date codec lemmas",
 "C19": "calendar arithmetic on the ordinal used by `date.weekday`",
 "C20": "false of the code; what is skipped is characterised exactly",
 "C21": "rational arithmetic",
 "C22": "induction",
 "C23": "induction",
 "C24": "invariant by induction on histories",
 "C25": "composition: base16, checksum, flags, SAL round trips, framing",
 "C26": "as C25",
 "C27": "false for address 0 (witness); every other address by the decoder's inverse lemmas",
 "C28": "as C25 with C15",
 "C29": "decode specification for all six route codes; failure for all others (bridge address 0 is rejected: noted)",
 "C30": "as C25",
 "C31": "false of the code except 0x38; all 48 applications are settled",
 "C32": "case analysis of the decoder with C02",
 "C33": "false for direct CAL commands: witness; `_partial` for every other case",
 "C34": "case analysis of the framing stage",
 "C35": "framing stage is prefix-stable",
 "C36": "false; the inputs on which it raises are characterised exactly in both directions",
 "C37": "case analysis",
 "C38": "case analysis with `find` lemmas",
 "C39": "invariant over histories of the generic buffered protocol with an arbitrary handler",
 "C40": "induction on chunks using C35",
 "C41": "false because of C33: witness; `_partial` for streams without direct CAL commands",
 "C42": "false for lines on which the decoder raises: they block the buffer (proved for all); partial for all other malformed lines",
 "C43": "invariant over arbitrary histories (`Trace`): the counter and the codes written",
 "C44": "computation of `_send` on lighting packets",
 "C45": "case analysis",
 "C46": "computation from an arbitrary state",
 "C47": "induction on the SAL list",
 "C48": "case analysis",
 "C49": "false of the code: cmqttd answers although told not to; partial for packets without a clock request",
 "C50": "case analysis on the eight bits",
 "C51": "induction on the SAL list",
 "C52": "invariant over histories with ghost queue",
 "C53": "induction over the receive loop",
 "C54": "length field is off by one: negation; `_partial` for coverage and checksum",
 "C55": "simulation: C25, C40-style chopping, C50",
 "C56": "as C55 for the other direction",
 "C57": "false of the code, for every event and chopping; all later events are delivered (partial)",
 "C58": "false of the code for every documented float level; partial for integer levels",
 "C59": "string lemmas",
 "C60": "case analysis",
 "C61": "false for negative brightness: proved negation; `_partial` otherwise",
 "C62": "case analysis",
 "C63": "false for ramps to 0; `_partial` otherwise",
 "C64": "composition of C26, C40, C62",
 "C65": "composition of C25, C44, C60",
 "C66": "list lemmas",
 "C67": "string lemmas",
 "C68": "invariant over histories",
 "C69": "fold lemmas",
 "C70": "false of the code (witness, and for every such file); partial for names that are present but blank",
 "C71": "finite tables by kernel evaluation, lifted to every `str.lower` that is right about ASCII; the names that occur in `/repo/tests/data` reach the right attributes",
 "C72": "string lemmas",
 "C73": "induction on the number of periods",
 "C74": "false of the code in smart mode: an unsupported command blocks the buffer; case analysis of every other packet (partial)",
 "C75": "case analysis with suffix lemmas",
 "C76": "induction on attributes and children; compared with a specification by filtering (`FieldValue`)",
 "C77": "composition of C69 (the labels of a file) and C66 (what is announced)",
 "C78": "induction over the project structure; compared with a specification of the output by address (`Spec/Dump`)",
 "C79": "induction over the units and groups of a dump",
 "C80": "false of the code (witness); arrows are right (partial)",
 "C81": "false of the code (witness); the contents when the dump succeeds (partial)",
 "C82": "case analysis of the options; the list of actions is described without the code's branches",
 "C83": "false for hosts with a colon, and what happens then; every host without a colon (partial)",
 "C84": "false for every argument; what the printing function does (partial)",
 "C85": "induction over the links with an invariant of the disk (`Downloaded`)",
 "C86": "false of the code: encoded slashes; every other name (partial)",
 "C87": "invariant over arbitrary alternating histories",
 "C88": "invariant over both directions of the link, preserved by every action",
 "C89": "the invariant of C88 for the handlers of the daemon",
 "C90": "false of the code without a future: `None.set_result`; with one, over all histories (partial)",
 "C91": "from CPython's rules for list indices",
 "C92": "false of the code without bounds: the default is Ellipsis; with bounds by induction (partial)",
 "C93": "A grammar of spellings, independent of the parser, is shown to be read as the list of its options, by induction over the words. For the second part a word that is read as an option is characterised in both directions.",
 "C94": "The text that the script builds is shown to split into the words of a list of options; C93 then says how they are read.",
 "C95": "Through C93's characterisation of the words that disable TLS. False: the values are not quoted, so a space in MQTT_SERVER adds options.",
 "C96": "The loops over digits are proved equivalent to an inductive description of digits, signs and prefixes that knows no loops; trimming is described by the parts removed.",
 "C97": "An inductive relation describes which element is the first one wrong and why; both directions are proved by induction over the tree.",
 "C98": "Spec/Grammar.lean is the grammar, as inductive relations from bytes to results. C98_received and C98_sent: decode_packet = ok r iff the grammar derives r. The levels below have their own theorems: C98_applications (SALs), C98_cal and C98_cals, C98_pm, C98_pp, C98_dm, C98_event and C98_command (flags and payload), C98_event_line and C98_command_line.",
 "C99": "`Spec/Writing.lean` is a relation between a packet and its characters, with values as numbers and the duration table, the weekday and the checksum as relations. Every rule is shown to be what the encoder computes, and every packet is shown to have a rule; the two give the equivalence.",
 "C100": "`Spec/JsonText.lean` is the grammar as one inductive relation between texts and values; the scanner of `Model/JsonText.lean`, modelled after CPython's, is shown sound by induction on its fuel and complete by induction on the grammar. That `json.dumps` is read back follows from the grammar.",
 "C101": "The message of a script is shown to be a text of the grammar of C100, so that C60 applies to it.",
 "C102": "`Spec/Session.lean` composes the grammar of messages (C98) with a grammar of texts that raise, the events of a packet and the line with the time into one inductive relation over conversations. The theorems are equivalences between that relation and the model fed with the pieces, for the plain protocol and for the daemon.",
 "C103": "`Spec/ServerSession.lean` is an inductive relation over conversations, on top of the grammar of messages (C98) and of texts that raise (C102). `C103_server` is an equivalence between it and the model fed with the pieces; every derivation is what the model does, and there is always one.",
 "C104": "`Spec/Life.lean` describes topics, payloads down to their bytes, commands, announcements and one step of a daemon as relations; `C104_daemon` and, with `json.loads` itself, `C104_bytes` are equivalences between histories of the relation and of the model. `C104_topic` and `C104_payload` are the equivalences for topics and payloads, `C104_histories` connects the histories to those of C43 and C90.",
 "C105": "Turns of the two loops are steps of a machine; induction over the turns, with C40 for the client.",
 "C106": "An inductive relation of leftmost replacement; the code's split and join compute it; a cut outside newlines commutes with it.",
 "C107": "Case distinction on the first four bytes; the answer is computed by the kernel and compared with the documented layout.",
 "C108": "from C11, C01 and C03",
 "C109": "from C66",
 "C110": "from C102 and C64; delivery lemma of C88",
 "C111": "Files with their contents, requests with a status and a body or an exception. Induction over the links: each file that is new has the body of the answer for a link with its name. The witness is a 404 page.",
 "C112": "A grammar of command lines for any table of options (`Spec/ArgParse.lean`) is proved to be exactly what the model of `argparse` reads (`Lemmas/ArgGrammar.lean`); the theorem of each tool says which of these lines it accepts and what comes out.",
 "C113": "optparse is modelled as one pass over the words; an inductive grammar of command lines is shown equivalent to it",
 "C114": "an inductive language of action logs; induction over histories; escape is inverted byte by byte",
 "C115": "histories after the failure, by induction",
 "C116": "The main program is a fold over the events of all connections with a slot per connection; the part of one connection is projected out by induction over the events and is then described by the specification of C103.",
 "C117": "logging is a state (handlers and level of the root, levels of other loggers); the exact destinations of every record are computed for arbitrary logger names by induction over the name",
 "C118": "the simulated PCI in its power-up state writes every event without a checksum; the client's decoder takes each such line for an invalid packet or, if the bytes happen to sum to zero, for a packet without commands; composed over streams with Run",
 "C119": "from the exact conditions under which a call raises (C45), and from the search for the rate, which ends with the slowest",
 "C120": "who can call the client at all is a function of the sockets and tasks registered with the event loop; an invariant for the states with and without a socket",
 "C121": "the exact description of each step in C104 is searched for writes: an induction over what a client hears (C102) shows that only the time is written there; the spelling of a command determines its bytes, so that a lighting command can only stem from a message",
 "C122": "what is published is computed event by event (C62) and compared with a light that moves linearly in time; the level at rest is that of the last event about it if no ramp is stopped on its way",
 "C123": "the conversation of C102 is searched for publications; each goes back, through the grammar of C98, to the line and the command it was read from",
 "C124": "a valid message, by the grammar of C98, is one of seven kinds; what is called for each follows from C102",
 "C125": "From C102 (what is heard) and C104 (what is done in a step): the grammar of a confirmation, the call made for it, and the code carried by the line of the set message.",
 "C126": "A transition system around daemonDo (C104); the invariant says that what is on its way to the network is already shown, and what is on its way to the daemon is already done.",
 "C127": "C104 for the daemon that gets the message, the grammar of C98 and C102 for the one that is told.",
 "C128": "The relation of C104 says what each step does; by induction over the history what is in the buffer is the end of all that was received, so C123 for one piece becomes the claim for the history. The exception is a piece larger than the buffer, which is dropped while the buffer is kept: `C128_false` gives a history in which the first half of a line of unit 5 and the second half of a line of unit 0x7D add up, with a valid checksum, to a command that nobody has sent.",
 "C129": "A broker with MQTT's rule for retained messages is put next to the daemon's steps (`Hub`). Nothing that the daemon publishes is on a topic ending with `/set` (as in C67, now for all steps), so by induction what it leaves at the broker never comes back; what connecting writes is computed exactly (`C129_exactly`).",
 "C130": "The command of a set message is known (C60, C99); the time of a command is that of its ramp code. `C130_taken` computes it for every message; the rest are comparisons of rational numbers.",
 "C131": "From C130_taken, which gives the command and the published transition for every message.",
 "C132": "False: paho's `tls_set` gives `ca_certs` to `load_verify_locations` as a file. `Model/Startup` carries out the steps of `_main` in a world in which each may fail; `C132_directory` shows what every directory does (the PCI is opened, then an `OSError`, and the broker is never connected), `C132_container` follows it through the entry point and the parser of the command line, `C132_partial` is the case of a file or of Python's store.",
 "C133": "`Model/Startup`: all ways in which the start can go (`startup_cases`); `C133_trusted` for connections, `C133_session` for what the client has when the daemon runs.",
 "C134": "`C134_runs` is an equivalence with conditions on the options and the world, `C134_order` compares with the steps when nothing fails.",
 "C135": "C135_steps carries the options that C94_options gives through startup_cases and connectBroker; C135_time applies C46 and C73 to the protocol object that the factory makes; C135_names applies C77 to the labels with which the handler was started.",
 "C136": "UTF-8 decoding is Lean's own (round trip proved); Latin-1 by counting the bytes of the last character; lines by universal newlines.",
 "C137": "`Model/DockerRun` makes the environment of the script from the settings of the command; C135_steps gives the steps.",
 "C138": "`Model/Keepalive` is the client's notion of time. `C138_kept` holds for every keepalive and every pause of `misc_loop`; the monitors `Awake`, `Answers` and `Heard` say what is assumed of the loop and the broker, and what the broker sees.",
 "C139": "Two phases, before and after the ping (`Silence`), over every history.",
 "C140": "From C111: what is there under a name comes from a link of that name.",
 "C141": "A simulation between two runs of the relation of C104, carried over to the code's model by C104_daemon; for lights and broker with the network of C126.",
 "C142": "Everything a daemon may write (C121) is read as the grammar of C98 says; no event that comes of it makes the handler write. Then induction over histories of the town, with C67 for what is published.",
 "C143": "`Spec/Uri.lean` restates RFC 3986: the parts of a reference, how they are written, `remove_dot_segments` with its two buffers, and the resolution of references; the examples of its section 5.4 are checked. `Model/Url.lean` has `urlsplit`, `urlparse`, `urlunparse` and `urljoin`. That both agree is proved by induction on the segments of the path. `Props/Parameters.lean` adds the addresses with parameters after the last segment: the whole address is requested, but what is before the semicolon decides whether it is.",
 "C144": "`downloadAll` is the tool with its addresses as text and with the exceptions of `urllib.parse`. A page whose links can all be read is treated as in `Model/Downloads.lean` (`download_web`), otherwise the tool ends after the terms.",
 "C145": "`ArrowDrawn` and `NodeDrawn` forget the subgraphs and keep the texts of nodes, as in a DOT file. `C145_arrows` and `C145_nodes` say what the drawing contains for every dump.",
 "C146": "A model of the indented writer of the json module; every dump is in the class of values that are written exactly (keys of each object are distinct, by IsDump of C78), so the text is a JSON text of the value by the grammar of C100, and the reader of C100 gives the value back. Reading what open' gave back as a project (C78) and drawing (C79) are composed with it. All characters are shown to be ASCII by induction over the value.",
 "C147": "Spec: entities from configuration topics and messages (abbreviated names, the tilde), the messages of the services turn_on and turn_off, how a state message is taken. C66 gives what is published, and each message is turned into its entity; identities differ by the injectivity of decimal numerals. A service call is written by the JSON writer, read back by C100, interpreted by the rule of C60, and its line and its messages are computed in the three cases of C130; reports of other units go through C126's account of a heard line; a history is an induction over its steps.",
 "C148": "Spec: what may be received of a sequence of messages (the order of section 4.6 of MQTT 3.1.1), what a broker keeps on a topic. By C141 what comes of each message does not depend on the others; the last of what comes of them for one light, or on one topic, is shown to be the same by induction over the delivery.",
 "C149": "The street of C126 with stops and starts: a stopped daemon is not told of commands that it has not been told of yet, a started one is a fresh object for which connection_made and on_connect of the model are run. A note is kept of the lights that were missed; leaving those out, every step is one of C126's steps, whose invariant carries over. That a start shows nothing follows from the messages of C66. C149_stays: whatever is done to a light while the daemon is away, the same is shown until something is done to it while the daemon is there.",
 "C150": "C36 gives the error, C42 what a blocked buffer does with each piece, C64 that whole lines are heard from an empty buffer; induction over the pieces. The witness is a cycle of three pieces of 17 reports that ends where it began.",
 "C151": "induction over the derivation of the conversation (C102, grammar of C98): a command takes at least two bytes, a message at least twelve characters more; the buffer is what has not been spent.",
 "C152": "the digits of a line count for 16 or 1 times their value by position; an even loss keeps the positions, so the sum of what is left differs by what the lost digits count for. C32 says that only lines that sum to zero become messages.",
 "C153": "The grammar of C98 is inverted: whatever is read as a command or CAL is well formed and already on the grid of values that can be sent, so that the round trips of C25, C26, C28 and C30 give the same packet. For lighting lines the writing of C99 gives the very characters.",
 "C154": "`C154_warnings`: the list of warnings is the one of the relation `Warns` of `Spec/Warnings.lean`, for every application and all data. `C154_results`: the decoders with warnings have the results of the ones without. `C154_silent`: no warning and no exception iff the data are commands throughout, each reported. `C154_received`, `C154_sent`: the warnings of `decode_packet` for every point to multipoint packet it returns, with those for checksum and confirmation code. `C154_message`: the same for the arguments the client uses. `C154_only`: in strict mode there are no others. `C154_direct`: of lines for the PCI itself there are only those for the confirmation code and, unless they begin with `@`, the checksum.",
 "C155": "`C155_spells`: the specification `Spells` gives every ASCII text exactly one sequence of octets. `C155_unquote`: `unquote` decodes that sequence. `C155_other`: other characters are kept in their place. `C155_documents`: the file of each document of a page has that name.",
 "C156": "C55 gives one direction for all choppings that fit; that nothing else is accepted follows from the two refusals of `data_received`. The witness is fifteen lamps that are switched on at once: 261 characters.",
 "C157": "`Spec/Layout.lean` says what a text with one item per line is, for any JSON value and independently of how it is written; that `json.dump` writes one is proved by induction on the value.",
 "C158": "`Model/Repr.lean` has the texts. `C158_partial`: packets of equal text say the same (`SaysTheSame` of `Spec/Repr.lean`), for all that is received but temperatures and network variables; every text is shown to be readable whatever is behind it. `C158_false`: twenty and twenty-one degrees have the same text. `C158_something`: no packet is printed as `None`. `C158_untold`: the text of a report depends neither on its sender nor on the bridges.",
 "C159": "`Log.event` and `Log.serverEvent` are injective as far as levels are whole numbers, which all received ones are; the lines of a packet that begin with `recv: ` are the texts of the events of the packet (C47) or of the calls among the effects of the simulated PCI. `C159_claim` says that the percentage of a ramp is at most 100; `C159_false` refutes it with level 255, and `C159_percent` says what is written.",
 "C160": "A relation between the lengths of the queue before and after and the trace is shown to be kept by every method; the length after is twice the number of clock updates since something was last sent.",
 "C161": "The line of a piece is that of the buffer with the piece at its end, and the text of bytes can be read back (C158): by induction two histories with the same lines agree piece for piece. The lines of `_send` for bytes are told from those for packets since no text of a packet begins with `b`.",
 "C162": "what digits count for in the sum (C152); digits of two neighbours are told apart modulo 256 wherever the bytes begin",
 "C163": "C66 for the messages of a connection, the broker of C129, and a trace invariant: everything else is published on topics of states",
 "C164": "each constructor of the independent description of the daemon's life (`Does`, C104) is shown to tell the readings between its two counts; a line tells one time only (`clockLine_stamp`), so the order holds for whatever times the lines can be read as",
 "C165": "a beginning of a line is waited with (from the stability of `handle_data`, C40), so what has been processed is the lines that are whole; `C165_last` says that the last piece of a report is the one that gives its messages",
 "C166": "The spec says when a line or a message is about another light (a lighting command with that group address, or a message on the state topic of that address), what is left without these, and when a history is another one without some messages. Over the relation Lives of C104 a message that is not for the light does only things about others and leaves a state that agrees in all but the counter of codes (C141); the rest is C141's lemma that agreeing states do the same.",
 "C167": "Induction over the histories of C104 with what has been published so far; the groups of received commands are bytes by the grammar of C98.",
 "C168": "C168_startup relates two runs of the start that differ only in the file; SameSteps allows only steps that give the client its credentials to differ. C168_unreadable: a file that cannot be decoded.",
 "C169": "C169_labels relates two runs step by step; Renamed allows only the name field of a configuration of a light whose label differs to be different. C169_same: labels of other groups make no difference. C169_start: the start.",
 "C170": "C170_timeless, on top of C104 (every step of the daemon is described by a relation that does not read the settings). C170_kept: what counts as something else. C170_left: what is left is well defined.",
 "C171": "The damaged line is malformed (the sum of its bytes is off by less than 256, or it has a character that is no digit), or two lines if it begins with a confirmation code; so the stream is one of lines for known packets (C64).",
 "C172": "By C64 and C171 both executions publish the messages of the reports that come through; those about the light are the same from the undamaged report on, which leaves a message on both topics, and only the last one is kept.",
 "C173": "By induction over the pieces, with what was shown about a socket in C110; with C171 it follows that damaged reports cost only themselves over a serial line.",
 "C174": "By C64 and C171 both executions publish the messages of the reports that come through; the last message on each topic is the same (the induction of C148).",
 "C175": "a changed digit either is no digit any more or makes the checksum wrong; a wrong confirmation code is rejected by strict decoding",
 "C176": "each line is one step of a run of the receiver: a command is carried out and confirmed (C55), a damaged one is passed over (C175); runs are indifferent to the pieces in which they arrive",
 "C177": "as C176, with all that the simulated PCI writes followed back to the client, where each pair of characters is decoded as a confirmation",
 "C178": "line by line: a reset puts the options back, the first two commands change none of them, and the last sets them all; a line with a character that is no digit is passed over",
 "C179": "a code and any other character are taken together for a confirmation, so that what follows is read from the same place as if it were not damaged; if the first character is no code any more, all up to the next end of a line is one line with a character in it that is no digit",
 "C180": "a packet for a remark leaves the state alone and only calls its handler, so leaving all of them out leaves everything else as it is"
}