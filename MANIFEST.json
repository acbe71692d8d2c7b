{
 "claims": [
  {
   "property": "C01",
   "status": "proved",
   "theorems": [
    "CBus.Props.C01_checksum_valid",
    "CBus.Props.C01_validate_iff",
    "CBus.Props.C01_checksum_unique"
   ],
   "note": ""
  },
  {
   "property": "C02",
   "status": "proved",
   "theorems": [
    "CBus.Props.C02_single_byte_error",
    "CBus.Props.C02_swap_undetected"
   ],
   "note": ""
  },
  {
   "property": "C03",
   "status": "proved",
   "theorems": [
    "CBus.Props.C03_base16_clean",
    "CBus.Props.C03_base16_inverse"
   ],
   "note": ""
  },
  {
   "property": "C04",
   "status": "proved",
   "theorems": [
    "CBus.Props.C04_group_address",
    "CBus.Props.C04_constructors"
   ],
   "note": ""
  },
  {
   "property": "C05",
   "status": "proved",
   "theorems": [
    "CBus.Props.C05_round_up",
    "CBus.Props.C05_number",
    "CBus.Props.C05_extremes",
    "CBus.Props.C05_whole",
    "CBus.Props.C05_ramp"
   ],
   "note": ""
  },
  {
   "property": "C06",
   "status": "proved",
   "theorems": [
    "CBus.Props.C06_duration_exact",
    "CBus.Props.C06_rate_table",
    "CBus.Props.C06_monotone"
   ],
   "note": ""
  },
  {
   "property": "C07",
   "status": "proved",
   "theorems": [
    "CBus.Props.C07_manchester_roundtrip",
    "CBus.Props.C07_manchester_byte",
    "CBus.Props.C07_manchester_missing"
   ],
   "note": ""
  },
  {
   "property": "C08",
   "status": "proved",
   "theorems": [
    "CBus.Props.C08_single_bit_noise",
    "CBus.Props.C08_only_codewords",
    "CBus.Props.C08_half",
    "CBus.Props.C08_legal_nibbles",
    "CBus.Props.C08_other_lengths"
   ],
   "note": ""
  },
  {
   "property": "C09",
   "status": "proved",
   "theorems": [
    "CBus.Props.C09_encode_in_place",
    "CBus.Props.C09_too_small",
    "CBus.Props.C09_from_start",
    "CBus.Props.C09_from_end"
   ],
   "note": ""
  },
  {
   "property": "C10",
   "status": "proved",
   "theorems": [
    "CBus.Props.C10_level_roundtrip",
    "CBus.Props.C10_level_decode"
   ],
   "note": ""
  },
  {
   "property": "C11",
   "status": "proved",
   "theorems": [
    "CBus.Props.C11_binary_bytes",
    "CBus.Props.C11_binary_states",
    "CBus.Props.C11_binary_layout"
   ],
   "note": ""
  },
  {
   "property": "C12",
   "status": "proved",
   "theorems": [
    "CBus.Props.C12_extended_roundtrip"
   ],
   "note": ""
  },
  {
   "property": "C13",
   "status": "partial",
   "theorems": [
    "CBus.Props.C13_overlong_misframed",
    "CBus.Props.C13_false",
    "CBus.Props.C13_overlong_partial"
   ],
   "note": "False of the code: reports of 29 to 252 bytes are encoded without an exception, with a length field that is too small (C13_overlong_misframed for all of them, C13_false for a concrete one decoded as a different report). The partial theorem covers the other sizes: up to 28 bytes the length field is right, from 253 bytes ValueError is raised."
  },
  {
   "property": "C14",
   "status": "proved",
   "theorems": [
    "CBus.Props.C14_identify",
    "CBus.Props.C14_identify_undefined",
    "CBus.Props.C14_recall",
    "CBus.Props.C14_reply"
   ],
   "note": ""
  },
  {
   "property": "C15",
   "status": "proved",
   "theorems": [
    "CBus.Props.C15_cal_sequence",
    "CBus.Props.C15_decode_pieces"
   ],
   "note": ""
  },
  {
   "property": "C16",
   "status": "proved",
   "theorems": [
    "CBus.Props.C16_lighting_sequence"
   ],
   "note": ""
  },
  {
   "property": "C17",
   "status": "proved",
   "theorems": [
    "CBus.Props.C17_lighting_total",
    "CBus.Props.C17_lighting_suffix",
    "CBus.Props.C17_lighting_sound"
   ],
   "note": ""
  },
  {
   "property": "C18",
   "status": "proved",
   "theorems": [
    "CBus.Props.C18_clock_sequence",
    "CBus.Props.C18_datetime",
    "CBus.Props.C18_update",
    "CBus.Props.C18_kind"
   ],
   "note": ""
  },
  {
   "property": "C19",
   "status": "proved",
   "theorems": [
    "CBus.Props.C19_weekday"
   ],
   "note": ""
  },
  {
   "property": "C20",
   "status": "partial",
   "theorems": [
    "CBus.Props.C20_false",
    "CBus.Props.C20_unknown_variable_partial"
   ],
   "note": "False of the code: an update of an unknown clock variable skips its length twice, so messages behind it are lost (C20_false). The partial theorem states what happens: no exception, 2n bytes skipped instead of n, messages before it unaffected, nothing lost if nothing follows."
  },
  {
   "property": "C21",
   "status": "proved",
   "theorems": [
    "CBus.Props.C21_temperature",
    "CBus.Props.C21_temperature_rejected",
    "CBus.Props.C21_temperature_sequence"
   ],
   "note": ""
  },
  {
   "property": "C22",
   "status": "proved",
   "theorems": [
    "CBus.Props.C22_enable_sequence"
   ],
   "note": ""
  },
  {
   "property": "C23",
   "status": "proved",
   "theorems": [
    "CBus.Props.C23_status_sequence"
   ],
   "note": ""
  },
  {
   "property": "C24",
   "status": "proved",
   "theorems": [
    "CBus.Props.C24_append",
    "CBus.Props.C24_never_mixes",
    "CBus.Props.C24_clear",
    "CBus.Props.C24_contents",
    "CBus.Props.C24_frame"
   ],
   "note": ""
  },
  {
   "property": "C25",
   "status": "proved",
   "theorems": [
    "CBus.Props.C25_command"
   ],
   "note": ""
  },
  {
   "property": "C26",
   "status": "proved",
   "theorems": [
    "CBus.Props.C26_event"
   ],
   "note": ""
  },
  {
   "property": "C27",
   "status": "partial",
   "theorems": [
    "CBus.Props.C27_every_partial",
    "CBus.Props.C27_source_partial",
    "CBus.Props.C27_false"
   ],
   "note": "False for address byte 0, which is reported as no address (C27_false). Proved for every buffer (C27_every_partial): a message that carries a source has the one that the third and fourth characters spell, except that 00 is no source."
  },
  {
   "property": "C28",
   "status": "proved",
   "theorems": [
    "CBus.Props.C28_command",
    "CBus.Props.C28_event"
   ],
   "note": ""
  },
  {
   "property": "C29",
   "status": "proved",
   "theorems": [
    "CBus.Props.C29_bridged",
    "CBus.Props.C29_bad_route"
   ],
   "note": ""
  },
  {
   "property": "C30",
   "status": "proved",
   "theorems": [
    "CBus.Props.C30_command",
    "CBus.Props.C30_event"
   ],
   "note": ""
  },
  {
   "property": "C31",
   "status": "partial",
   "theorems": [
    "CBus.Props.C31_lighting_applications_partial",
    "CBus.Props.C31_commands_partial",
    "CBus.Props.C31_false"
   ],
   "note": "False: of the 48 lighting application addresses only 0x38 works (C31_false). The partial theorems settle all 48, for event lines and for commands: 0x38 is decoded, the other 47 give an InvalidPacket whenever the packet carries at least one command."
  },
  {
   "property": "C32",
   "status": "proved",
   "theorems": [
    "CBus.Props.C32_pci_invalid",
    "CBus.Props.C32_client_invalid",
    "CBus.Props.C32_pci_only_valid",
    "CBus.Props.C32_client_only_valid",
    "CBus.Props.C32_single_byte",
    "CBus.Props.C32_single_character",
    "CBus.Props.C32_single_character_command"
   ],
   "note": "Lines starting with '@' carry no checksum and are excluded. Wrong checksums and single changed bytes are covered in both directions. Damage to one character of the text: from the PCI the line becomes an InvalidPacket (C32_single_character; the first character must not become '+', '!' or a confirmation code); towards the PCI it never becomes another command (C32_single_character_command; a CR in the middle is excluded, since it ends the command early)."
  },
  {
   "property": "C33",
   "status": "partial",
   "theorems": [
    "CBus.Props.C33_position_partial",
    "CBus.Props.C33_false",
    "CBus.Props.C33_cal"
   ],
   "note": "False for bare CALs on the server side (C33_false: 10 bytes given, 13 reported). The partial theorem covers every other result; C33_cal says what the position is for bare CALs: the length of the decoded CAL is added to the end of the line, whether the buffer reaches that far or not."
  },
  {
   "property": "C34",
   "status": "proved",
   "theorems": [
    "CBus.Props.C34_pci",
    "CBus.Props.C34_client",
    "CBus.Props.C34_progress"
   ],
   "note": ""
  },
  {
   "property": "C35",
   "status": "proved",
   "theorems": [
    "CBus.Props.C35_prefix_stable"
   ],
   "note": ""
  },
  {
   "property": "C36",
   "status": "partial",
   "theorems": [
    "CBus.Props.C36_pci_partial",
    "CBus.Props.C36_client_partial",
    "CBus.Props.C36_client_strict",
    "CBus.Props.C36_false"
   ],
   "note": "False in both directions (C36_false). The partial theorems characterise exactly the inputs on which decode_packet raises, in strict and in lenient mode."
  },
  {
   "property": "C37",
   "status": "proved",
   "theorems": [
    "CBus.Props.C37_confirmation",
    "CBus.Props.C37_first_character",
    "CBus.Props.C37_invalid_code",
    "CBus.Props.C37_codes"
   ],
   "note": ""
  },
  {
   "property": "C38",
   "status": "proved",
   "theorems": [
    "CBus.Props.C38_cancel",
    "CBus.Props.C38_null",
    "CBus.Props.C38_reset",
    "CBus.Props.C38_smart"
   ],
   "note": ""
  },
  {
   "property": "C39",
   "status": "proved",
   "theorems": [
    "CBus.Props.C39_bounded",
    "CBus.Props.C39_overflow",
    "CBus.Props.C39_contract",
    "CBus.Props.C39_limit"
   ],
   "note": ""
  },
  {
   "property": "C40",
   "status": "proved",
   "theorems": [
    "CBus.Props.C40_client",
    "CBus.Props.C40_idle"
   ],
   "note": ""
  },
  {
   "property": "C41",
   "status": "partial",
   "theorems": [
    "CBus.Props.C41_server_partial",
    "CBus.Props.C41_idle",
    "CBus.Props.C41_false",
    "CBus.Props.C41_swallowed"
   ],
   "note": "False for bare CALs on the server side (C41_false: a direct RECALL command swallows what arrives together with it). The partial theorem covers all streams in which the simulated PCI meets no bare CAL and no chunk overflows the 256-byte buffer. C41_swallowed says exactly what is lost: as many bytes behind the line as the CAL has."
  },
  {
   "property": "C42",
   "status": "partial",
   "theorems": [
    "CBus.Props.C42_client_partial",
    "CBus.Props.C42_server_partial",
    "CBus.Props.C42_blocked",
    "CBus.Props.C42_blocked_server",
    "CBus.Props.C42_false",
    "CBus.Props.C42_client_line",
    "CBus.Props.C42_client_goes_on",
    "CBus.Props.C42_server_line",
    "CBus.Props.C42_server_skips"
   ],
   "note": "False: a base16 line of odd length, or 00, raises and stays in the buffer, so everything behind it is blocked until the buffer overflows (C42_blocked, C42_blocked_server, C42_false). C42_client_line and C42_server_line split all lines without restriction on the options: an unreadable line (C36) blocks, any other is consumed and what is behind it handled as if it had come alone; C42_client_goes_on and C42_server_skips are the claim for every malformed line that is not unreadable."
  },
  {
   "property": "C43",
   "status": "proved",
   "theorems": [
    "CBus.Props.C43_cycle",
    "CBus.Props.C43_distinct",
    "CBus.Props.C43_returned",
    "CBus.Props.C43_daemon"
   ],
   "note": "For the client with its own event handlers, over any history of calls, connections, disconnections and received data of an object whose counter starts at 0."
  },
  {
   "property": "C44",
   "status": "proved",
   "theorems": [
    "CBus.Props.C44_one_command",
    "CBus.Props.C44_full"
   ],
   "note": "Also covers identify and clock_datetime. Group addresses and durations are Python ints; the day of the week is that of the Gregorian calendar."
  },
  {
   "property": "C45",
   "status": "proved",
   "theorems": [
    "CBus.Props.C45_no_effect",
    "CBus.Props.C45_kind",
    "CBus.Props.C45_exactly"
   ],
   "note": "Also covers identify and clock_datetime. datetime.now() may have been called by a clock call that raises. C45_kind names the exception."
  },
  {
   "property": "C46",
   "status": "proved",
   "theorems": [
    "CBus.Props.C46_connect"
   ],
   "note": ""
  },
  {
   "property": "C47",
   "status": "proved",
   "theorems": [
    "CBus.Props.C47_short",
    "CBus.Props.C47_packet",
    "CBus.Props.C47_stream"
   ],
   "note": "C47_packet is for arbitrary handlers that do not call other handlers; C47_stream for the client's own handlers, a connected client, and chunks that fit the buffer; C47_short says which do."
  },
  {
   "property": "C48",
   "status": "proved",
   "theorems": [
    "CBus.Props.C48_answers",
    "CBus.Props.C48_decodes"
   ],
   "note": "For a connected client."
  },
  {
   "property": "C49",
   "status": "partial",
   "theorems": [
    "CBus.Props.C49_no_request_partial",
    "CBus.Props.C49_false"
   ],
   "note": "False of the code: CBusHandler.on_clock_request ignores the option (C49_false). The partial theorem covers packets without a clock request, in response to which nothing is written."
  },
  {
   "property": "C50",
   "status": "proved",
   "theorems": [
    "CBus.Props.C50_options",
    "CBus.Props.C50_other_parameters",
    "CBus.Props.C50_reset",
    "CBus.Props.C50_shortcut",
    "CBus.Props.C50_untouched"
   ],
   "note": ""
  },
  {
   "property": "C51",
   "status": "proved",
   "theorems": [
    "CBus.Props.C51_confirmed",
    "CBus.Props.C51_queue_lines"
   ],
   "note": "For a connected object and random.randint(1, 100) within its range. C51_confirmed needs the send queue to contain lines only, which C51_queue_lines proves for every history. The set of commands the simulated PCI handles is spelled out in Accepted / Understood."
  },
  {
   "property": "C52",
   "status": "proved",
   "theorems": [
    "CBus.Props.C52_fifo",
    "CBus.Props.C52_conserved"
   ],
   "note": ""
  },
  {
   "property": "C53",
   "status": "proved",
   "theorems": [
    "CBus.Props.C53_message",
    "CBus.Props.C53_unconnected",
    "CBus.Props.C53_stream",
    "CBus.Props.C53_basic",
    "CBus.Props.C53_smart"
   ],
   "note": "For receptions that do not overflow the buffer (C39 covers overflow), a connected object and random.randint(1, 100) within its range. The mode of each message is that in which it is found, so a message that switches to smart mode is itself still echoed."
  },
  {
   "property": "C54",
   "status": "partial",
   "theorems": [
    "CBus.Props.C54_report_partial",
    "CBus.Props.C54_length",
    "CBus.Props.C54_false"
   ],
   "note": "The length field is wrong (C54_false; C54_length: one more than the number of bytes it should count, for all three blocks). Proved without it: blocks, addresses, checksums and contents of the table."
  },
  {
   "property": "C55",
   "status": "proved",
   "theorems": [
    "CBus.Props.C55_delivered",
    "CBus.Props.C55_small_pieces_fit"
   ],
   "note": "Also covers the clock calls; the server's receive buffer is empty at the start (a new connection), everything else about it is arbitrary. identify is excluded: a point-to-point command."
  },
  {
   "property": "C56",
   "status": "proved",
   "theorems": [
    "CBus.Props.C56_delivered",
    "CBus.Props.C56_small_pieces_fit",
    "CBus.Props.C56_answers"
   ],
   "note": "Also covers ramp events with integer levels. C56_answers: errors and confirmations, which are not events of the network."
  },
  {
   "property": "C57",
   "status": "partial",
   "theorems": [
    "CBus.Props.C57_later_partial",
    "CBus.Props.C57_false"
   ],
   "note": "False of the code: the first event is never delivered (C57_false, for every event and every chopping), because echo and confirmations carry no CRLF and merge with it. C57_later_partial: all the later ones are delivered."
  },
  {
   "property": "C58",
   "status": "partial",
   "theorems": [
    "CBus.Props.C58_false",
    "CBus.Props.C58_default",
    "CBus.Props.C58_integer_partial"
   ],
   "note": "False of the code: every float level, including the default 1.0, raises without effect (C58_false, C58_default). The partial theorem covers integer levels 0..255, which the documentation does not mention."
  },
  {
   "property": "C59",
   "status": "proved",
   "theorems": [
    "CBus.Props.C59_text",
    "CBus.Props.C59_inverse",
    "CBus.Props.C59_others",
    "CBus.Props.C59_distinct"
   ],
   "note": "For every table of Unicode digits, white space and case that is right about ASCII. C59_inverse covers the topics of all integers; other topics with odd spellings of the number (white space, sign, underscores) are also accepted by the code."
  },
  {
   "property": "C60",
   "status": "partial",
   "theorems": [
    "CBus.Props.C60_acts_partial",
    "CBus.Props.C60_ignored",
    "CBus.Props.C60_raises",
    "CBus.Props.C60_every",
    "CBus.Props.C60_nothing_else",
    "CBus.Props.C60_disconnected",
    "CBus.Props.C60_false"
   ],
   "note": "The partial theorem leaves out a negative brightness in an ON message, see C61 (C60_false). C60_every says that every JSON value is a message or raises a known exception (C60_raises), C60_ignored covers the other topics and payloads, C60_disconnected a lost connection. json.loads is an arbitrary function."
  },
  {
   "property": "C61",
   "status": "partial",
   "theorems": [
    "CBus.Props.C61_clamped_partial",
    "CBus.Props.C61_negative",
    "CBus.Props.C61_false"
   ],
   "note": "False of the code: a negative brightness becomes the float 0., which cannot be encoded, so on_message raises and nothing happens (C61_false for a concrete message, C61_negative for all). The partial theorem covers brightness from 0 up and every transition."
  },
  {
   "property": "C62",
   "status": "proved",
   "theorems": [
    "CBus.Props.C62_event",
    "CBus.Props.C62_packet"
   ],
   "note": "C62_packet is for a connected C-Bus client; before the connection to the broker nothing is published."
  },
  {
   "property": "C63",
   "status": "partial",
   "theorems": [
    "CBus.Props.C63_events_partial",
    "CBus.Props.C63_messages_partial",
    "CBus.Props.C63_false"
   ],
   "note": "False of the code: a ramp to level 0 publishes state ON and binary sensor OFF (C63_false). The partial theorems cover every other event and set message."
  },
  {
   "property": "C64",
   "status": "proved",
   "theorems": [
    "CBus.Props.C64_short",
    "CBus.Props.C64_stream"
   ],
   "note": "For chunks that fit the receive buffer; C64_short says which do."
  },
  {
   "property": "C65",
   "status": "proved",
   "theorems": [
    "CBus.Props.C65_decodes",
    "CBus.Props.C65_simulated_pci"
   ],
   "note": "For set messages with a brightness that is not negative (see C61). C65_simulated_pci composes it with the simulated PCI of pciserverprotocol.py."
  },
  {
   "property": "C66",
   "status": "proved",
   "theorems": [
    "CBus.Props.C66_connect",
    "CBus.Props.C66_distinct",
    "CBus.Props.C66_daemon",
    "CBus.Props.C66_announced",
    "CBus.Props.C66_labels_cosmetic"
   ],
   "note": "C66_labels_cosmetic: labels change only names."
  },
  {
   "property": "C67",
   "status": "proved",
   "theorems": [
    "CBus.Props.C67_no_feedback"
   ],
   "note": "Covers everything published by on_connect, on_message and data from the PCI."
  },
  {
   "property": "C68",
   "status": "proved",
   "theorems": [
    "CBus.Props.C68_register",
    "CBus.Props.C68_stable",
    "CBus.Props.C68_builtin_order",
    "CBus.Props.C68_get_application"
   ],
   "note": ""
  },
  {
   "property": "C69",
   "status": "proved",
   "theorems": [
    "CBus.Props.C69_labels",
    "CBus.Props.C69_readable",
    "CBus.Props.C69_proper",
    "CBus.Props.C69_described",
    "CBus.Props.C69_incomplete",
    "CBus.Props.C69_file"
   ],
   "note": "The project is any result of reading an XML tree (C69_file). What str.lower, int and str.strip do outside ASCII is an arbitrary table."
  },
  {
   "property": "C70",
   "status": "partial",
   "theorems": [
    "CBus.Props.C70_false",
    "CBus.Props.C70_blank_partial",
    "CBus.Props.C70_none"
   ],
   "note": "False of the code: the text of an empty element is None, which becomes the text 'None' and is used as the label (C70_none for every such file, C70_false). The partial theorem covers names that are present but blank."
  },
  {
   "property": "C71",
   "status": "proved",
   "theorems": [
    "CBus.Props.C71_distinct",
    "CBus.Props.C71_reached",
    "CBus.Props.C71_toolkit"
   ],
   "note": ""
  },
  {
   "property": "C72",
   "status": "proved",
   "theorems": [
    "CBus.Props.C72_auth",
    "CBus.Props.C72_verbatim"
   ],
   "note": "The file is its text after universal newline translation."
  },
  {
   "property": "C73",
   "status": "proved",
   "theorems": [
    "CBus.Props.C73_periodic",
    "CBus.Props.C73_disabled",
    "CBus.Props.C73_disconnected"
   ],
   "note": "What the rest of the program does while the task sleeps is arbitrary as long as it keeps the client connected, sends no clock updates itself and does not raise into the task."
  },
  {
   "property": "C74",
   "status": "partial",
   "theorems": [
    "CBus.Props.C74_consumed_partial",
    "CBus.Props.C74_stuck",
    "CBus.Props.C74_false"
   ],
   "note": "False of the code in smart mode: a request for the presence of units raises NotImplementedError and its line stays in the buffer, blocking everything behind it (C74_false, C74_stuck). The partial theorem: everything else that decode_packet understands is consumed in both modes. Lines on which decode_packet itself raises are C42."
  },
  {
   "property": "C75",
   "status": "partial",
   "theorems": [
    "CBus.Props.C75_false",
    "CBus.Props.C75_archive_partial",
    "CBus.Props.C75_xml_partial",
    "CBus.Props.C75_unread"
   ],
   "note": "False of the code (C75_false): an open file that is XML is never read, since looking for an archive has moved to its end. Proved for archives, and for XML given by name or in a pipe; C75_unread says that the rest is never read. The ZIP and XML parsers are not modelled: a file is the member list or the tree they give."
  },
  {
   "property": "C76",
   "status": "proved",
   "theorems": [
    "CBus.Props.C76_fields",
    "CBus.Props.C76_readable"
   ],
   "note": ""
  },
  {
   "property": "C77",
   "status": "partial",
   "theorems": [
    "CBus.Props.C77_labels_partial",
    "CBus.Props.C77_false",
    "CBus.Props.C77_announced_partial"
   ],
   "note": "False of the code (C77_false): an XML file for --project-file stops the daemon with a ParseError. Proved for archives with any networks, applications and groups in the tree of the XML in them (and XML in a pipe)."
  },
  {
   "property": "C78",
   "status": "proved",
   "theorems": [
    "CBus.Props.C78_dump",
    "CBus.Props.C78_succeeds",
    "CBus.Props.C78_described",
    "CBus.Props.C78_addresses",
    "CBus.Props.C78_file"
   ],
   "note": "argparse, the JSON text, XML and ZIP are not modelled. int(text, 16) is Python's (including its prefix, sign and underscores), for every table of Unicode digits that is right about ASCII. C78_file is the exact output for whole files with distinct addresses; C78_dump for any project structure."
  },
  {
   "property": "C79",
   "status": "proved",
   "theorems": [
    "CBus.Props.C79_file",
    "CBus.Props.C79_graph",
    "CBus.Props.C79_drawn"
   ],
   "note": "pydot is not modelled: the graph is the nodes and edges it is given. Units with the same name share a node in the drawing."
  },
  {
   "property": "C80",
   "status": "partial",
   "theorems": [
    "CBus.Props.C80_false",
    "CBus.Props.C80_arrows_partial"
   ],
   "note": "False of the code: a node 'GA 255' is added for every network with an unused channel (C80_false); only the arrows are left out."
  },
  {
   "property": "C81",
   "status": "partial",
   "theorems": [
    "CBus.Props.C81_false",
    "CBus.Props.C81_output_partial"
   ],
   "note": "False of the code: the output file is opened for writing before the dump is made, so a dump that fails leaves it empty (C81_false)."
  },
  {
   "property": "C82",
   "status": "proved",
   "theorems": [
    "CBus.Props.C82_refused",
    "CBus.Props.C82_broker",
    "CBus.Props.C82_running"
   ],
   "note": "Reading the options is C93; connections that fail and what TLS does with its arguments are C133 and C134."
  },
  {
   "property": "C83",
   "status": "partial",
   "theorems": [
    "CBus.Props.C83_false",
    "CBus.Props.C83_colon",
    "CBus.Props.C83_host_partial"
   ],
   "note": "False of the code: the option is split at the first two colons, so that an IPv6 address gives another host and port or an exception (C83_false; C83_colon for every such text). The partial theorem: every host without a colon."
  },
  {
   "property": "C84",
   "status": "partial",
   "theorems": [
    "CBus.Props.C84_refused",
    "CBus.Props.C84_false",
    "CBus.Props.C84_pretty_partial"
   ],
   "note": "False of the code: type=bytes refuses every argument in Python 3, so the tool always ends with a usage message (C84_refused, C84_false). The partial theorem is about pretty_packet."
  },
  {
   "property": "C85",
   "status": "proved",
   "theorems": [
    "CBus.Props.C85_no_overwrite",
    "CBus.Props.C85_complete"
   ],
   "note": "The HTML parser and urllib are not modelled: a page is its start tags. Requests that fail are C111."
  },
  {
   "property": "C86",
   "status": "partial",
   "theorems": [
    "CBus.Props.C86_false",
    "CBus.Props.C86_anywhere",
    "CBus.Props.C86_inside_partial",
    "CBus.Props.C86_plain"
   ],
   "note": "False of the code: the name is unquoted after splitting at slashes, so an encoded slash leads out of the destination (C86_false, C86_anywhere). The partial theorem: names that have no slash when unquoted."
  },
  {
   "property": "C87",
   "status": "proved",
   "theorems": [
    "CBus.Props.C87_reads",
    "CBus.Props.C87_housekeeping",
    "CBus.Props.C87_raises"
   ],
   "note": "paho's client is not modelled: the events are the calls it makes and the results of loop_misc. C87_raises: over all histories, in order or not, only closing a socket before any was opened raises."
  },
  {
   "property": "C88",
   "status": "proved",
   "theorems": [
    "CBus.Props.C88_interleaved",
    "CBus.Props.C88_client"
   ],
   "note": "Pieces of up to 209 bytes; identify is left out, since the simulated PCI never replies to it. After clock updates the simulated PCI makes up events of its own, which the client is told of as well."
  },
  {
   "property": "C89",
   "status": "proved",
   "theorems": [
    "CBus.Props.C89_daemon",
    "CBus.Props.C89_every_message"
   ],
   "note": "As C88. The daemon is connected to the broker from the start. A message that switches on with a negative brightness counts as asking for nothing (C61). C89_every_message: every payload on every topic is covered."
  },
  {
   "property": "C90",
   "status": "partial",
   "theorems": [
    "CBus.Props.C90_false",
    "CBus.Props.C90_resolved_partial",
    "CBus.Props.C90_silent"
   ],
   "note": "False of the code: without a future, which is optional, connection_lost raises AttributeError (C90_false). The partial theorem: objects with a future, over every history of the daemon. C90_silent holds in full."
  },
  {
   "property": "C91",
   "status": "proved",
   "theorems": [
    "CBus.Props.C91_sals",
    "CBus.Props.C91_cals",
    "CBus.Props.C91_reports",
    "CBus.Props.C91_reversed",
    "CBus.Props.C91_binary_group"
   ],
   "note": ""
  },
  {
   "property": "C92",
   "status": "partial",
   "theorems": [
    "CBus.Props.C92_always",
    "CBus.Props.C92_false",
    "CBus.Props.C92_bounds_partial"
   ],
   "note": "False of the code: the default bounds are Ellipsis, so that index(x) always raises TypeError (C92_always, C92_false). The partial theorem: both bounds given."
  },
  {
   "property": "C93",
   "status": "proved",
   "theorems": [
    "CBus.Props.C93_spelled",
    "CBus.Props.C93_line",
    "CBus.Props.C93_tls",
    "CBus.Props.C93_clock",
    "CBus.Props.C93_values"
   ],
   "note": "The options are listed in Spec/Manual.lean as the help texts have them; argparse itself is not in the repository and is modelled after Python 3.8. An argument -- in the same word as its option (--tcp=--), which argparse turns into an empty list, is outside the claim."
  },
  {
   "property": "C94",
   "status": "proved",
   "theorems": [
    "CBus.Props.C94_refuses",
    "CBus.Props.C94_options"
   ],
   "note": "Stated through the parser of C93, so from variables to parsed options."
  },
  {
   "property": "C95",
   "status": "partial",
   "theorems": [
    "CBus.Props.C95_false",
    "CBus.Props.C95_words",
    "CBus.Props.C95_tls_partial"
   ],
   "note": "False of the code: MQTT_SERVER='mqtt --broker-disable-tls' disables TLS with MQTT_USE_TLS=1 (C95_false). Proved for all values in which no word begins with --broker-d."
  },
  {
   "property": "C96",
   "status": "proved",
   "theorems": [
    "CBus.Props.C96_strip",
    "CBus.Props.C96_decimal",
    "CBus.Props.C96_hexadecimal",
    "CBus.Props.C96_written"
   ],
   "note": "Every property about topics, messages, project files and dumps that mentions a number in a text is stated with these descriptions."
  },
  {
   "property": "C97",
   "status": "proved",
   "theorems": [
    "CBus.Props.C97_attribute",
    "CBus.Props.C97_text",
    "CBus.Props.C97_element",
    "CBus.Props.C97_labels",
    "CBus.Props.C97_dump"
   ],
   "note": "Exceptions are pinned exactly; which labels and dumps succeed is C69 and C78."
  },
  {
   "property": "C98",
   "status": "proved",
   "theorems": [
    "CBus.Props.C98_applications",
    "CBus.Props.C98_cal",
    "CBus.Props.C98_cals",
    "CBus.Props.C98_pm",
    "CBus.Props.C98_dm",
    "CBus.Props.C98_pp",
    "CBus.Props.C98_event",
    "CBus.Props.C98_command",
    "CBus.Props.C98_event_line",
    "CBus.Props.C98_command_line",
    "CBus.Props.C98_received",
    "CBus.Props.C98_sent",
    "CBus.Props.C98_defaults"
   ],
   "note": "Which exception is raised for a buffer outside the grammar is C36."
  },
  {
   "property": "C99",
   "status": "proved",
   "theorems": [
    "CBus.Props.C99_sal",
    "CBus.Props.C99_report",
    "CBus.Props.C99_cal",
    "CBus.Props.C99_packet"
   ],
   "note": "Dates and times in clock updates are assumed to be ones Python's datetime admits; anything else in the arguments is arbitrary."
  },
  {
   "property": "C100",
   "status": "proved",
   "theorems": [
    "CBus.Props.C100_loads",
    "CBus.Props.C100_one_value",
    "CBus.Props.C100_bytes",
    "CBus.Props.C100_not_json",
    "CBus.Props.C100_duplicates",
    "CBus.Props.C100_dumps",
    "CBus.Props.C100_round_trip",
    "CBus.Props.C100_published"
   ],
   "note": "Floats are a parameter (what float() and repr make of them); values with floats need that Python reads the text of a float as that float. CPython's limits on nesting and on the number of digits are not modelled."
  },
  {
   "property": "C101",
   "status": "proved",
   "theorems": [
    "CBus.Props.C101_on",
    "CBus.Props.C101_off",
    "CBus.Props.C101_ramp",
    "CBus.Props.C101_no_address",
    "CBus.Props.C101_not_json",
    "CBus.Props.C101_told",
    "CBus.Props.C101_listen",
    "CBus.Props.C101_heard",
    "CBus.Props.C101_usage",
    "CBus.Props.C101_example"
   ],
   "note": "The Mosquitto programs are assumed to deliver what they are given. An argument of cbus_ramp that is not a number but leaves the message JSON can change its meaning (example)."
  },
  {
   "property": "C102",
   "status": "proved",
   "theorems": [
    "CBus.Props.C102_text",
    "CBus.Props.C102_received",
    "CBus.Props.C102_sent",
    "CBus.Props.C102_client",
    "CBus.Props.C102_protocol",
    "CBus.Props.C102_daemon"
   ],
   "note": "Equivalences with an independent relation over whole conversations; faults are characterised in both directions of the line."
  },
  {
   "property": "C103",
   "status": "proved",
   "theorems": [
    "CBus.Props.C103_server"
   ],
   "note": "Equivalence with an independent relation over whole conversations."
  },
  {
   "property": "C104",
   "status": "proved",
   "theorems": [
    "CBus.Props.C104_payload",
    "CBus.Props.C104_topic",
    "CBus.Props.C104_daemon",
    "CBus.Props.C104_bytes",
    "CBus.Props.C104_histories"
   ],
   "note": "Equivalence with an independent relation over histories. That bytes arrive only over a connection is what asyncio guarantees."
  },
  {
   "property": "C105",
   "status": "proved",
   "theorems": [
    "CBus.Props.C105_transparent",
    "CBus.Props.C105_closed",
    "CBus.Props.C105_unsent",
    "CBus.Props.C105_newline",
    "CBus.Props.C105_setup",
    "CBus.Props.C105_client"
   ],
   "note": "The optparse parser, the spy and exceptions of the serial port are not modelled. Newline conversion is C106."
  },
  {
   "property": "C106",
   "status": "partial",
   "theorems": [
    "CBus.Props.C106_replaced",
    "CBus.Props.C106_converted_partial",
    "CBus.Props.C106_single",
    "CBus.Props.C106_false",
    "CBus.Props.C106_round_trip"
   ],
   "note": "False of the code, as its own comment says: a CR and an LF that arrive in different turns are not converted (C106_false). Proved for all streams in which no newline is cut, which includes all streams with newlines of one byte."
  },
  {
   "property": "C107",
   "status": "partial",
   "theorems": [
    "CBus.Props.C107_answer_partial",
    "CBus.Props.C107_quiet",
    "CBus.Props.C107_false"
   ],
   "note": "False of the code: the announced port is 10017 (0x2721), not 10001 (0x2711), see C107_false. All else is proved."
  },
  {
   "property": "C108",
   "status": "partial",
   "theorems": [
    "CBus.Props.C108_contents_partial",
    "CBus.Props.C108_header_partial",
    "CBus.Props.C108_false",
    "CBus.Props.C108_too_long",
    "CBus.Props.C108_packet",
    "CBus.Props.C108_decode"
   ],
   "note": "False of the code for more than 112 group states: the length runs into the bits of the kind and the CAL announces an extended status report (C108_false). Proved: contents and packet for all states, announcement and length field up to 112 states, decode_cal on all bytes."
  },
  {
   "property": "C109",
   "status": "partial",
   "theorems": [
    "CBus.Props.C109_always",
    "CBus.Props.C109_false",
    "CBus.Props.C109_accepted_partial"
   ],
   "note": "False of the code: the return code is ignored (C109_always, C109_false). The partial theorem: accepted connections."
  },
  {
   "property": "C110",
   "status": "partial",
   "theorems": [
    "CBus.Props.C110_tcp",
    "CBus.Props.C110_burst",
    "CBus.Props.C110_false",
    "CBus.Props.C110_serial",
    "CBus.Props.C110_short_partial"
   ],
   "note": "False of the code: a piece of more than 256 characters raises, which over TCP closes the connection and ends the daemon (C110_burst for all of them, C110_false). C110_tcp says for everything received when the daemon ends. The partial theorem: pieces that leave room for an incomplete line."
  },
  {
   "property": "C111",
   "status": "partial",
   "theorems": [
    "CBus.Props.C111_saved_partial",
    "CBus.Props.C111_available_partial",
    "CBus.Props.C111_sticky",
    "CBus.Props.C111_false",
    "CBus.Props.C111_names"
   ],
   "note": "False of the code: the status is not looked at, so an error page is saved under the name of the document (C111_false), and no later run replaces it (C111_sticky). The partial theorems: everything else, for every answer; and the claim itself if the server has everything it is asked for."
  },
  {
   "property": "C112",
   "status": "proved",
   "theorems": [
    "CBus.Props.C112_dump",
    "CBus.Props.C112_graph",
    "CBus.Props.C112_decode",
    "CBus.Props.C112_decode_refused",
    "CBus.Props.C112_fetch",
    "CBus.Props.C112_pci",
    "CBus.Props.C112_pci_connects",
    "CBus.Props.C112_server"
   ],
   "note": "The options are listed in Spec/Manual.lean as the help texts have them; argparse itself is not in the repository and is modelled after Python 3.8. An argument -- in the same word as its option is outside the claim."
  },
  {
   "property": "C113",
   "status": "proved",
   "theorems": [
    "CBus.Props.C113_line",
    "CBus.Props.C113_help",
    "CBus.Props.C113_listens",
    "CBus.Props.C113_ends",
    "CBus.Props.C113_starts"
   ],
   "note": "The options are listed in Spec/Manual.lean as the help text has them; optparse of Python 2.7 is modelled from its documentation and source; how it reads numbers is an arbitrary function. What serial.Serial makes of its settings is not modelled."
  },
  {
   "property": "C114",
   "status": "proved",
   "theorems": [
    "CBus.Props.C114_readable",
    "CBus.Props.C114_sessions",
    "CBus.Props.C114_fresh",
    "CBus.Props.C114_spy",
    "CBus.Props.C114_quiet"
   ],
   "note": "Ctrl-C during the second in which the reader is waited for is taken to end the program at once."
  },
  {
   "property": "C115",
   "status": "partial",
   "theorems": [
    "CBus.Props.C115_write_partial",
    "CBus.Props.C115_mute",
    "CBus.Props.C115_false"
   ],
   "note": "False of the code: the exception of a failed read ends the reader thread only, self.alive stays true, and the client is never told (C115_mute for all later turns, C115_false). The partial theorem: a failed write ends the program."
  },
  {
   "property": "C116",
   "status": "proved",
   "theorems": [
    "CBus.Props.C116_clients",
    "CBus.Props.C116_alone"
   ],
   "note": "What random.randint returns is arbitrary for each connection. An exception in data_received closes only its own connection, which is what asyncio's transports do."
  },
  {
   "property": "C117",
   "status": "partial",
   "theorems": [
    "CBus.Props.C117_false",
    "CBus.Props.C117_partial",
    "CBus.Props.C117_setLevel",
    "CBus.Props.C117_tools"
   ],
   "note": "False as claimed: the file is never written and nothing goes to stdout (C117_false). C117_partial says exactly what is written where for every logger and level; C117_tools the same for the other two programs."
  },
  {
   "property": "C118",
   "status": "partial",
   "theorems": [
    "CBus.Props.C118_deaf",
    "CBus.Props.C118_false",
    "CBus.Props.C118_connect_partial"
   ],
   "note": "False as claimed (C118_false); C118_deaf: nothing reaches any client, which does nothing. C118_connect_partial: a PCI that has powered up before the client connects is configured."
  },
  {
   "property": "C119",
   "status": "partial",
   "theorems": [
    "CBus.Props.C119_never",
    "CBus.Props.C119_false",
    "CBus.Props.C119_slowest_partial"
   ],
   "note": "False as claimed: it never raises because of the duration (C119_never). C119_slowest_partial: every longer ramp does exactly what the ramp of 1020 seconds does."
  },
  {
   "property": "C120",
   "status": "partial",
   "theorems": [
    "CBus.Props.C120_never",
    "CBus.Props.C120_false",
    "CBus.Props.C120_served_partial",
    "CBus.Props.C120_callers",
    "CBus.Props.C120_housekeeping"
   ],
   "note": "False as claimed (C120_false); C120_never: once lost, the state never changes again. C120_served_partial: until then the socket is read and the housekeeping task runs. Of paho-mqtt it is assumed that it opens sockets in connect and reconnect only."
  },
  {
   "property": "C121",
   "status": "proved",
   "theorems": [
    "CBus.Props.C121_writes",
    "CBus.Props.C121_line",
    "CBus.Props.C121_lights"
   ],
   "note": "As C104: bytes arrive only while connected. What the command for a group is, given the payload, is C104."
  },
  {
   "property": "C122",
   "status": "partial",
   "theorems": [
    "CBus.Props.C122_told",
    "CBus.Props.C122_partial",
    "CBus.Props.C122_false"
   ],
   "note": "False: a terminate-ramp event is not handled by cmqttd (a TODO in the code), so that the broker shows for good the level that the stopped ramp would have reached: C122_false. C122_told says exactly what is shown; C122_partial is the claim for histories in which no ramp is stopped on its way. The light is modelled with linear ramps that take the event's duration; the daemon is connected to the broker throughout."
  },
  {
   "property": "C123",
   "status": "proved",
   "theorems": [
    "CBus.Props.C123_published"
   ],
   "note": "That such a line is always published is C64. The client is connected, as it is when bytes arrive."
  },
  {
   "property": "C124",
   "status": "partial",
   "theorems": [
    "CBus.Props.C124_called",
    "CBus.Props.C124_partial",
    "CBus.Props.C124_false"
   ],
   "note": "False: on_mmi, on_reset, on_lighting_label_text and on_pci_power_up are never called; a status report is the witness of C124_false. C124_partial says exactly for which messages nothing is called: power-up, point to point, device management, invalid ones and those to all units with no commands but temperatures, enable commands and status requests. C124_called: what is called for each."
  },
  {
   "property": "C125",
   "status": "partial",
   "theorems": [
    "CBus.Props.C125_told",
    "CBus.Props.C125_ignored",
    "CBus.Props.C125_partial",
    "CBus.Props.C125_false"
   ],
   "note": "The claim is false (C125_ignored for every refusal, C125_false with a witness). C125_partial: the code told to on_confirmation is the code of the line written for the message. C125_told: nothing else happens."
  },
  {
   "property": "C126",
   "status": "partial",
   "theorems": [
    "CBus.Props.C126_partial",
    "CBus.Props.C126_false"
   ],
   "note": "The claim is false (C126_false, with the history). C126_partial: it holds as long as nothing crosses. Refused commands (C125) and stopped ramps (C122) are claims of their own: here the PCI puts every command on the network, and lights go where they are told to."
  },
  {
   "property": "C127",
   "status": "proved",
   "theorems": [
    "CBus.Props.C127_alike"
   ],
   "note": "C127_alike. The line from the PCI is any that spells the command with a source address."
  },
  {
   "property": "C128",
   "status": "partial",
   "theorems": [
    "CBus.Props.C128_partial",
    "CBus.Props.C128_unknown_partial",
    "CBus.Props.C128_false"
   ],
   "note": "False: a piece of more than 256 bytes is dropped with a ValueError, but what is in the buffer stays, so that the first half of one line is joined with the second half of a later one: C128_false. C128_partial: the claim if no piece received before was larger than the buffer. C128_unknown_partial: then nothing is shown of a light of which nobody has said anything, whatever reports are received (the daemon does not ask for the state of the lights either, see C121)."
  },
  {
   "property": "C129",
   "status": "partial",
   "theorems": [
    "CBus.Props.C129_exactly",
    "CBus.Props.C129_partial",
    "CBus.Props.C129_again",
    "CBus.Props.C129_false"
   ],
   "note": "False: on_message does not look at the retain flag, so a command that another client has published with it is carried out anew at every connection: C129_false. C129_exactly: what is written then is exactly what the kept messages on set topics ask for. C129_again: they stay until someone leaves others there. C129_partial: the claim if nobody else leaves messages on set topics. The broker is modelled after MQTT 3.1.1 (3.3.1.3) with exact topics, in which all subscriptions of cmqttd are."
  },
  {
   "property": "C130",
   "status": "partial",
   "theorems": [
    "CBus.Props.C130_taken",
    "CBus.Props.C130_partial",
    "CBus.Props.C130_within",
    "CBus.Props.C130_false",
    "CBus.Props.C130_fraction_false"
   ],
   "note": "False twice: the transition of a message that switches off is ignored (C130_false), and fractions of seconds are cut off before a time is looked for (C130_fraction_false: 4.5 becomes 4, 0.5 becomes none). C130_partial: the claim for messages that switch on or dim, in whole seconds. C130_within: with fractions less than a second is lost. C130_taken: what time any message gets."
  },
  {
   "property": "C131",
   "status": "partial",
   "theorems": [
    "CBus.Props.C131_partial",
    "CBus.Props.C131_otherwise",
    "CBus.Props.C131_false"
   ],
   "note": "False: the time that was asked for is published, not the one that the ramp command has (5 seconds are shown for a ramp of 8, an hour for one of 17 minutes): C131_false. C131_partial: true for the sixteen times of C-Bus and for switching off. C131_otherwise: false for all others."
  },
  {
   "property": "C132",
   "status": "partial",
   "theorems": [
    "CBus.Props.C132_directory",
    "CBus.Props.C132_container",
    "CBus.Props.C132_partial",
    "CBus.Props.C132_false"
   ],
   "note": "False of the code: a directory is taken for a file and the daemon ends with OSError (C132_directory for every directory, C132_container for the container). The facts about paho-mqtt 1.5.0 and ssl are assumptions, listed in Model/Startup."
  },
  {
   "property": "C133",
   "status": "proved",
   "theorems": [
    "CBus.Props.C133_trusted",
    "CBus.Props.C133_session"
   ],
   "note": "paho-mqtt 1.5.0 and ssl as described in Model/Startup (certificates are required and host names are checked by default)."
  },
  {
   "property": "C134",
   "status": "proved",
   "theorems": [
    "CBus.Props.C134_runs",
    "CBus.Props.C134_order"
   ],
   "note": ""
  },
  {
   "property": "C135",
   "status": "proved",
   "theorems": [
    "CBus.Props.C135_steps",
    "CBus.Props.C135_time",
    "CBus.Props.C135_names",
    "CBus.Props.C135_unnamed"
   ],
   "note": "Plain values only (no spaces, quotes or patterns: Simple), as in C94; with the names of project files that the reader understands (installationXml), as in C77."
  },
  {
   "property": "C136",
   "status": "partial",
   "theorems": [
    "CBus.Props.C136_partial",
    "CBus.Props.C136_ascii",
    "CBus.Props.C136_latin1",
    "CBus.Props.C136_false",
    "CBus.Props.C136_mark",
    "CBus.Props.C136_daemon",
    "CBus.Props.C136_undecodable"
   ],
   "note": "False of the code: FileType('rt') opens the file with the encoding of the locale. C136_false has a password with an umlaut in a Latin-1 locale. C136_partial: in a UTF-8 locale; C136_ascii: an ASCII file in every locale; C136_latin1: in Latin-1 exactly the ASCII names are right; C136_mark: a byte order mark becomes part of the user name; C136_daemon, C136_undecodable: the same for the start of the daemon."
  },
  {
   "property": "C137",
   "status": "partial",
   "theorems": [
    "CBus.Props.C137_known",
    "CBus.Props.C137_partial",
    "CBus.Props.C137_hassio",
    "CBus.Props.C137_files",
    "CBus.Props.C137_false",
    "CBus.Props.C137_last"
   ],
   "note": "False: the third command sets BROKER_USE_TLS=0, which the script does not know (it is MQTT_USE_TLS), so TLS is used and a broker without TLS is not reached (C137_false, C137_hassio, hassio_plain). C137_partial: the first two commands. C137_known: only the seven variables count. C137_last: of two settings of a variable the last one counts."
  },
  {
   "property": "C138",
   "status": "partial",
   "theorems": [
    "CBus.Props.C138_kept",
    "CBus.Props.C138_partial",
    "CBus.Props.C138_false"
   ],
   "note": "False for a keepalive of one second (C138_false). C138_partial: a keepalive of at least twice the pause of misc_loop. paho-mqtt 1.5.0 as described in Model/Keepalive."
  },
  {
   "property": "C139",
   "status": "proved",
   "theorems": [
    "CBus.Props.C139_noticed",
    "CBus.Props.C139_zero"
   ],
   "note": "paho-mqtt 1.5.0 as described in Model/Keepalive."
  },
  {
   "property": "C140",
   "status": "partial",
   "theorems": [
    "CBus.Props.C140_partial",
    "CBus.Props.C140_false"
   ],
   "note": "False for two documents of the same name (C140_false); C140_partial: every document whose name no other one has and that was not there before."
  },
  {
   "property": "C141",
   "status": "proved",
   "theorems": [
    "CBus.Props.C141_same",
    "CBus.Props.C141_message",
    "CBus.Props.C141_twice"
   ],
   "note": "C141_same: whole histories. C141_message: one message, in any two states. C141_twice: among the lights of C126, the same message twice in a row. As in C104 bytes arrive only over a connection."
  },
  {
   "property": "C142",
   "status": "proved",
   "theorems": [
    "CBus.Props.C142_silent",
    "CBus.Props.C142_town"
   ],
   "note": "C142_silent: one daemon, any line. C142_town: histories of any number of daemons. Lines are heard whole (when the receive buffer is empty). The network is the specification Overheard: a command for the network reaches the others with the sender's address in it; resets and settings stay with the PCI."
  },
  {
   "property": "C143",
   "status": "partial",
   "theorems": [
    "CBus.Props.C143_parameters",
    "CBus.Props.C143_parameters_followed",
    "CBus.Props.C143_partial",
    "CBus.Props.C143_false"
   ],
   "note": "False for relative references with empty segments (C143_false). C143_partial: all references without parameters, double slashes, empty queries, dots after an authority, and `https:` without an authority. C143_parameters and C143_parameters_followed: what comes of absolute addresses with parameters, which C143_partial leaves out."
  },
  {
   "property": "C144",
   "status": "partial",
   "theorems": [
    "CBus.Props.C144_false",
    "CBus.Props.C144_partial",
    "CBus.Props.C144_stops",
    "CBus.Props.C144_readable",
    "CBus.Props.C144_plain"
   ],
   "note": "False: a link with a single bracket raises ValueError before anything of the page is downloaded (C144_false, C144_stops). C144_partial: pages whose links can be read; C144_readable: every link of ASCII characters without brackets can be."
  },
  {
   "property": "C145",
   "status": "partial",
   "theorems": [
    "CBus.Props.C145_arrows",
    "CBus.Props.C145_ends",
    "CBus.Props.C145_nodes",
    "CBus.Props.C145_partial",
    "CBus.Props.C145_false"
   ],
   "note": "False for units of the same name (C145_false: a panel in each of two networks). C145_partial: units that share their name only with units of the same groups; C145_arrows, C145_nodes and C145_ends say for every dump what is drawn. Ports (names with colons) are pydot's."
  },
  {
   "property": "C146",
   "status": "proved",
   "theorems": [
    "CBus.Props.C146_pretty",
    "CBus.Props.C146_reads",
    "CBus.Props.C146_indent",
    "CBus.Props.C146_file",
    "CBus.Props.C146_ascii",
    "CBus.Props.C146_failed"
   ],
   "note": "The grammar of JSON texts (Spec) is independent of writer and reader."
  },
  {
   "property": "C147",
   "status": "proved",
   "theorems": [
    "CBus.Props.C147_found",
    "CBus.Props.C147_identities",
    "CBus.Props.C147_operates",
    "CBus.Props.C147_history",
    "CBus.Props.C147_last"
   ],
   "note": "Home Assistant is a specification written from its documentation. A report of a ramp to level 0 is shown as on with brightness 0, as cmqttd says ON with it."
  },
  {
   "property": "C148",
   "status": "proved",
   "theorems": [
    "CBus.Props.C148_redelivered"
   ],
   "note": "Messages only; commands of other units that come in between are C126."
  },
  {
   "property": "C149",
   "status": "partial",
   "theorems": [
    "CBus.Props.C149_partial",
    "CBus.Props.C149_stays",
    "CBus.Props.C149_false"
   ],
   "note": "The claim is false (C149_false, with the history). C149_partial: true of the lights that were not missed; C149_stays: the others stay as they were shown. A daemon is started only when nothing that another one left with the PCI is on its way."
  },
  {
   "property": "C150",
   "status": "partial",
   "theorems": [
    "CBus.Props.C150_partial",
    "CBus.Props.C150_forever",
    "CBus.Props.C150_false",
    "CBus.Props.C150_stays"
   ],
   "note": "False of the code: when the buffer overflows the piece goes with it, and what follows it begins within a line, which again cannot be read. C150_forever: the reports may be lost in this way without end (C150_false). The partial theorem: pieces of whole lines. C150_stays: the connection is never given up. That a serial port goes on after an exception is pyserial-asyncio and the event loop, modelled in Model/Serial.lean."
  },
  {
   "property": "C151",
   "status": "proved",
   "theorems": [
    "CBus.Props.C151_load"
   ],
   "note": "On a serial port, where an exception ends nothing; over TCP what happens is a part of it. Messages are counted, not their length. For a clock within the years of datetime, as in C102."
  },
  {
   "property": "C152",
   "status": "partial",
   "theorems": [
    "CBus.Props.C152_partial",
    "CBus.Props.C152_command_partial",
    "CBus.Props.C152_one",
    "CBus.Props.C152_two",
    "CBus.Props.C152_missed",
    "CBus.Props.C152_false"
   ],
   "note": "False of the code: the checksum is a sum, so lost bytes that sum to zero are not missed, for example a byte 00: of a report that group 1 goes to level 0 and group 5 is switched on, two zeros are lost, and level 121 is published for group 1 (C152_false). The partial theorem: it happens only if an even number of characters is lost that count for zero modulo 256; C152_missed: then the remainder passes the checksum. One lost character is always noticed (C152_one), two unless both are zeros (C152_two). C152_command_partial: the same for the digits of a command to the PCI."
  },
  {
   "property": "C153",
   "status": "partial",
   "theorems": [
    "CBus.Props.C153_partial",
    "CBus.Props.C153_command_partial",
    "CBus.Props.C153_exact",
    "CBus.Props.C153_false",
    "CBus.Props.C153_zero"
   ],
   "note": "False for messages that come through bridges (encode raises NotImplementedError, C153_false) and for events from source 0 (written without a source and then read as something else, C153_zero). Proved for all other messages, for events (C153_partial) and for commands with their confirmation code (C153_command_partial)."
  },
  {
   "property": "C154",
   "status": "proved",
   "theorems": [
    "CBus.Props.C154_warnings",
    "CBus.Props.C154_results",
    "CBus.Props.C154_silent",
    "CBus.Props.C154_received",
    "CBus.Props.C154_sent",
    "CBus.Props.C154_message",
    "CBus.Props.C154_only",
    "CBus.Props.C154_direct"
   ],
   "note": "A warning is a call of `warnings.warn`; which of them Python shows is a matter of its filter and not modelled. A variable of the clock that is not known is skipped with more data than belong to it (C20): there is one warning for both."
  },
  {
   "property": "C155",
   "status": "proved",
   "theorems": [
    "CBus.Props.C155_spells",
    "CBus.Props.C155_unquote",
    "CBus.Props.C155_other",
    "CBus.Props.C155_documents"
   ],
   "note": "The decoding of octets as UTF-8 is a parameter of which only ASCII is assumed. Names with an escaped slash are the subject of C86."
  },
  {
   "property": "C156",
   "status": "partial",
   "theorems": [
    "CBus.Props.C156_exactly",
    "CBus.Props.C156_burst",
    "CBus.Props.C156_partial",
    "CBus.Props.C156_false"
   ],
   "note": "False of the code: a piece of more than 256 characters closes the connection and nothing of it is carried out (C156_burst for all of them, C156_false). C156_exactly says for every chopping when all is carried out; the partial theorem: all at once if it is not more than 256 characters."
  },
  {
   "property": "C157",
   "status": "proved",
   "theorems": [
    "CBus.Props.C157_layout",
    "CBus.Props.C157_compact"
   ],
   "note": "json.dump's iterencode is modelled in Model/DumpText.lean. With 0, which json.dump would write with line ends, the program writes one line."
  },
  {
   "property": "C158",
   "status": "partial",
   "theorems": [
    "CBus.Props.C158_partial",
    "CBus.Props.C158_attributes",
    "CBus.Props.C158_something",
    "CBus.Props.C158_false",
    "CBus.Props.C158_untold"
   ],
   "note": "False for TemperatureBroadcastSAL and EnableSetNetworkVariableSAL, which have no __repr__: their text is the name of the class and an address in memory, whatever the temperature. Proved for all other packets. The text of a point to point packet leaves out its source address and its hops (C158_untold), which the statement does not ask for."
  },
  {
   "property": "C159",
   "status": "partial",
   "theorems": [
    "CBus.Props.C159_event",
    "CBus.Props.C159_server_event",
    "CBus.Props.C159_client",
    "CBus.Props.C159_client_calls",
    "CBus.Props.C159_server",
    "CBus.Props.C159_confirmed",
    "CBus.Props.C159_received",
    "CBus.Props.C159_partial",
    "CBus.Props.C159_percent",
    "CBus.Props.C159_false"
   ],
   "note": "All but the percentage: the simulated PCI multiplies a level from 0 to 255 by 100, so that full brightness is logged as 25500.00%; its documentation says levels are from 0.0 to 1.0. C159_confirmed also tells from the log which packets are confirmed. The lines of the bytes themselves are in C161; time and level of the records are not modelled."
  },
  {
   "property": "C160",
   "status": "partial",
   "theorems": [
    "CBus.Props.C160_held",
    "CBus.Props.C160_partial",
    "CBus.Props.C160_grows",
    "CBus.Props.C160_false"
   ],
   "note": "False of the code (C160_false): a clock update without a confirmation code leaves two packets in the queue and nothing empties it, so n of them leave 2n. What is true (C160_held, C160_partial): the queue holds two packets for each clock update since something was last sent and none besides, so nothing once something is sent after the last clock update, as after each confirmed command."
  },
  {
   "property": "C161",
   "status": "partial",
   "theorems": [
    "CBus.Props.C161_unchanged",
    "CBus.Props.C161_received_partial",
    "CBus.Props.C161_sent",
    "CBus.Props.C161_packet",
    "CBus.Props.C161_before",
    "CBus.Props.C161_sent_inj",
    "CBus.Props.C161_server",
    "CBus.Props.C161_false",
    "CBus.Props.C161_too_long"
   ],
   "note": "All of it for a client as long as no exception ends the connection, and for each first packet of a simulated PCI; the claim is false of what the simulated PCI held back, which is written without a line, and of pieces that are refused for their length (C161_false, C161_too_long). C161_packet: all the lines of one _send, in order."
  },
  {
   "property": "C162",
   "status": "proved",
   "theorems": [
    "CBus.Props.C162_reports",
    "CBus.Props.C162_added",
    "CBus.Props.C162_commands",
    "CBus.Props.C162_limits"
   ],
   "note": "C162_limits: with three characters (the outer two changed) another message can come out, and with an end of a line in the middle a shorter one."
  },
  {
   "property": "C163",
   "status": "proved",
   "theorems": [
    "CBus.Props.C163_names",
    "CBus.Props.C163_others"
   ],
   "note": "The broker is modelled after MQTT 3.1.1 (3.3.1.3). The bytes of a payload are a parameter that is not empty for JSON objects."
  },
  {
   "property": "C164",
   "status": "proved",
   "theorems": [
    "CBus.Props.C164_readings",
    "CBus.Props.C164_fresh",
    "CBus.Props.C164_forward"
   ],
   "note": ""
  },
  {
   "property": "C165",
   "status": "proved",
   "theorems": [
    "CBus.Props.C165_prompt",
    "CBus.Props.C165_last"
   ],
   "note": ""
  },
  {
   "property": "C166",
   "status": "proved",
   "theorems": [
    "CBus.Props.C166_own",
    "CBus.Props.C166_leaves",
    "CBus.Props.C166_apart",
    "CBus.Props.C166_order",
    "CBus.Props.C166_reports",
    "CBus.Props.C166_whole"
   ],
   "note": "C166_own shows that a command for the light itself and the messages about it are never counted as being about others. For the reports, C166_reports builds on C64. C166_whole has both at once: histories that differ in messages for other lights and in reports about them, where every piece received is made of whole reports. C166_order: two messages for different lights may be exchanged."
  },
  {
   "property": "C167",
   "status": "proved",
   "theorems": [
    "CBus.Props.C167_announced",
    "CBus.Props.C167_listens",
    "CBus.Props.C167_silent"
   ],
   "note": "C167_announced: states. C167_listens: commands. C167_silent: without a broker."
  },
  {
   "property": "C168",
   "status": "proved",
   "theorems": [
    "CBus.Props.C168_startup",
    "CBus.Props.C168_unreadable"
   ],
   "note": ""
  },
  {
   "property": "C169",
   "status": "proved",
   "theorems": [
    "CBus.Props.C169_labels",
    "CBus.Props.C169_same",
    "CBus.Props.C169_start"
   ],
   "note": ""
  },
  {
   "property": "C170",
   "status": "proved",
   "theorems": [
    "CBus.Props.C170_left",
    "CBus.Props.C170_kept",
    "CBus.Props.C170_timeless"
   ],
   "note": ""
  },
  {
   "property": "C171",
   "status": "partial",
   "theorems": [
    "CBus.Props.C171_partial",
    "CBus.Props.C171_tcp_partial",
    "CBus.Props.C171_fatal",
    "CBus.Props.C171_false"
   ],
   "note": "False as stated: if the first character becomes `+` or `!` then it is taken for a notification of its own, and the rest of the line is an odd number of digits, over which the decoder raises: it stays in the buffer, and over TCP the connection is lost. Proved for every other change."
  },
  {
   "property": "C172",
   "status": "proved",
   "theorems": [
    "CBus.Props.C172_others",
    "CBus.Props.C172_healed"
   ],
   "note": "Without the two characters of C171, which end the stream."
  },
  {
   "property": "C173",
   "status": "proved",
   "theorems": [
    "CBus.Props.C173_same",
    "CBus.Props.C173_more",
    "CBus.Props.C173_after",
    "CBus.Props.C173_damaged"
   ],
   "note": "What the transports do with an exception is the behaviour of asyncio and pyserial-asyncio as described in `Model/Tcp.lean`."
  },
  {
   "property": "C174",
   "status": "proved",
   "theorems": [
    "CBus.Props.C174_repeated",
    "CBus.Props.C174_either"
   ],
   "note": "About what the broker keeps in the end; in between the states of the repeated reports are published again."
  },
  {
   "property": "C175",
   "status": "partial",
   "theorems": [
    "CBus.Props.C175_partial",
    "CBus.Props.C175_code_partial",
    "CBus.Props.C175_backslash_partial",
    "CBus.Props.C175_lost",
    "CBus.Props.C175_false"
   ],
   "note": "False as stated (C175_false): with the confirmation code changed to another one the command is carried out and the wrong code confirmed; with `~` for the backslash the interface is reset; with `?` or a CR for a digit, or a digit for the code or the backslash, what is left raises and the next command is not carried out (C175_lost). Proved for every digit changed to anything but a CR or `?` (C175_partial), for the code changed to anything but another code, a digit, a CR or `?` (C175_code_partial), and for the backslash changed to anything but `@`, `~`, a digit, a CR or `?` (C175_backslash_partial). The backslash changed to `@`, a CR or `?` is not treated."
  },
  {
   "property": "C176",
   "status": "proved",
   "theorems": [
    "CBus.Props.C176_others",
    "CBus.Props.C176_which"
   ],
   "note": "Damage to the backslash, the confirmation code or the CR, and digits that become a CR or `?`, are excluded: see C175_lost."
  },
  {
   "property": "C177",
   "status": "proved",
   "theorems": [
    "CBus.Props.C177_answers",
    "CBus.Props.C177_known"
   ],
   "note": "Calls for lights only: the simulated PCI follows a change of the clock with reports at random. The way back is undamaged here; for damage there see C171 and C172."
  },
  {
   "property": "C178",
   "status": "partial",
   "theorems": [
    "CBus.Props.C178_partial",
    "CBus.Props.C178_confirmed_partial",
    "CBus.Props.C178_false",
    "CBus.Props.C178_misled"
   ],
   "note": "False as stated (C178_false): the set-up has no checksums, so that a digit that becomes another is not noticed; `A3300049` for `A3300059` is confirmed and leaves the interface in basic mode. `A3410038` for `A3210038` turns checksums on, after which the rest of the set-up is refused (C178_misled). Proved for lines that are lost or of which a digit becomes anything that is no digit (C178_partial, C178_confirmed_partial). That these are the lines that the client writes is C46."
  },
  {
   "property": "C179",
   "status": "partial",
   "theorems": [
    "CBus.Props.C179_partial",
    "CBus.Props.C179_swallowed",
    "CBus.Props.C179_published",
    "CBus.Props.C179_false"
   ],
   "note": "False as stated (C179_false): when the code becomes a character that is none, such as a digit, the confirmation is taken for the beginning of a report and takes all confirmations behind it and the next report with it. Proved while the first character is still a code (C179_partial), which also says what the client is told of the damaged ones: a success only if the second character is a full stop, for whatever code the first has become; it has no means to tell. Otherwise C179_swallowed says how much is lost: that confirmation, those that come at once behind it and the next line, which may be a report, damaged or not, and nothing behind that. C179_published: what the daemon publishes when reports (C171) and confirmations are damaged in one stream."
  },
  {
   "property": "C180",
   "status": "proved",
   "theorems": [
    "CBus.Props.C180_heedless",
    "CBus.Props.C180_history"
   ],
   "note": "C180_heedless: what arrives, in any pieces. C180_history: every history while the PCI is connected, with messages from the broker and times to tell, each line from the PCI in one piece."
  }
 ]
}