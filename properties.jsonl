{"id": "C01", "title": "Appended checksums always validate", "statement": "For every byte string m, validate_cbus_checksum(add_cbus_checksum(m)) is True, add_cbus_checksum leaves m as a prefix and appends exactly one byte, and the bytes of the result sum to 0 modulo 256.", "quantifier": "every byte string, of any length", "why_tests_cant": "a test samples a handful of messages; the claim is about all of them", "anchors": ["cbus/common.py::cbus_checksum", "cbus/common.py::add_cbus_checksum", "cbus/common.py::validate_cbus_checksum", "cbus/common.py::get_real_cbus_checksum"]}
{"id": "C02", "title": "Any single corrupted byte is caught by the checksum", "statement": "If a message carries a valid checksum and exactly one of its bytes (payload or checksum byte) is replaced by a different value, validate_cbus_checksum returns False.", "quantifier": "every valid message, every position, every replacement value", "why_tests_cant": "the product of messages, positions and values is unbounded", "anchors": ["cbus/common.py::validate_cbus_checksum", "cbus/common.py::cbus_checksum"]}
{"id": "C03", "title": "Base16 framing is lossless and clean", "statement": "encode_packet of an ordinary packet emits an even number of characters, all in 0-9A-F, so it can never contain a prompt, confirmation, cancel or end-of-line character; base16-decoding it gives back exactly encode().", "quantifier": "every byte string a packet can encode to", "why_tests_cant": "all byte values in all positions and lengths", "anchors": ["cbus/protocol/base_packet.py::BasePacket.encode_packet", "cbus/protocol/packet.py::decode_packet"]}
{"id": "C04", "title": "Group addresses are accepted exactly in 0..255", "statement": "check_ga (and hence every lighting SAL constructor) accepts an integer group address iff it is between 0 and 255 inclusive and raises ValueError otherwise.", "quantifier": "every integer, positive or negative", "why_tests_cant": "unbounded integers", "anchors": ["cbus/common.py::validate_ga", "cbus/common.py::check_ga", "cbus/protocol/application/lighting.py::LightingSAL.__init__"]}
{"id": "C05", "title": "Ramp durations are rounded up to the nearest supported rate", "statement": "duration_to_ramp_rate(d) returns a code whose duration is the least supported duration that is >= d; if d exceeds every supported duration (more than 1020 s) it returns the slowest rate, and never raises.", "quantifier": "every duration, whole or not, as well as NaN (taken for more than 1020 s) and the infinities", "why_tests_cant": "unbounded numbers; the boundary between each of 16 rates matters", "anchors": ["cbus/common.py::duration_to_ramp_rate", "cbus/common.py::_LIGHT_RAMP_RATES"]}
{"id": "C06", "title": "Ramp rate codes and durations are mutually inverse and monotone", "statement": "ramp_rate_to_duration(duration_to_ramp_rate(d)) = d for every supported duration, duration_to_ramp_rate(ramp_rate_to_duration(c)) = c for every ramp code c, a longer requested duration never yields a shorter ramp, and ramp_rate_to_duration raises KeyError exactly for codes that are not ramp codes.", "quantifier": "every integer duration, every integer code", "why_tests_cant": "unbounded integers and all pairs", "anchors": ["cbus/common.py::duration_to_ramp_rate", "cbus/common.py::ramp_rate_to_duration"]}
{"id": "C07", "title": "Manchester level coding round-trips", "statement": "manchester_decode(manchester_encode(v)) = v for every level 0..255, is v mod 256 for every other integer, and None (missing) encodes to two zero bytes which decode to None.", "quantifier": "every integer level and None", "why_tests_cant": "unbounded integers", "anchors": ["cbus/protocol/cal/report.py::manchester_encode", "cbus/protocol/cal/report.py::manchester_decode"]}
{"id": "C08", "title": "Single-bit line noise never yields a wrong level", "statement": "If any one bit of a manchester-coded level is flipped, manchester_decode reports None rather than another level; more generally a level is reported only when all four nibbles are legal code nibbles.", "quantifier": "every level, every bit position; every two-byte input", "why_tests_cant": "all levels by all bit positions, all 65536 inputs", "anchors": ["cbus/protocol/cal/report.py::manchester_decode", "cbus/protocol/cal/report.py::LevelStatusReport"]}
{"id": "C09", "title": "manchester_encode writes only its two bytes", "statement": "manchester_encode(v, buf, off) changes at most the bytes at off and off+1, keeps the length, does nothing for None, and raises IndexError leaving the buffer untouched when fewer than two bytes remain at off.", "quantifier": "every buffer, offset and value", "why_tests_cant": "unbounded buffers and offsets", "anchors": ["cbus/protocol/cal/report.py::manchester_encode"]}
{"id": "C10", "title": "Level status reports round-trip", "statement": "LevelStatusReport.decode(LevelStatusReport(states).encode()) reproduces the list of levels (each None or 0..255) for every length and order, and decode raises ValueError exactly for odd-length input.", "quantifier": "every list of optional levels; every byte string", "why_tests_cant": "lists of unbounded length", "anchors": ["cbus/protocol/cal/report.py::LevelStatusReport"]}
{"id": "C11", "title": "Binary status reports round-trip in both directions", "statement": "BinaryStatusReport.encode(decode(b)) = b for every byte string b, and decode(encode(states)) is states padded with MISSING up to a multiple of four (so unpadded lists of a multiple of four are reproduced exactly).", "quantifier": "every byte string; every list of group states", "why_tests_cant": "lists of unbounded length", "anchors": ["cbus/protocol/cal/report.py::BinaryStatusReport"]}
{"id": "C12", "title": "Extended status CALs round-trip when they fit", "statement": "An ExtendedCAL whose report encodes to at most 28 bytes is decoded back to the same externally-initiated flag, child application, block start and report, consuming exactly its own bytes, whatever follows it in the packet.", "quantifier": "every extended CAL with a report of up to 28 bytes, every trailing data", "why_tests_cant": "all reports, both types, followed by arbitrary bytes", "anchors": ["cbus/protocol/cal/extended.py::ExtendedCAL", "cbus/protocol/pp_packet.py::PointToPointPacket.decode_cal"]}
{"id": "C13", "title": "Over-long extended status reports are never silently mis-framed", "statement": "Encoding an ExtendedCAL whose report is longer than its 5-bit length field can express raises an error instead of producing a CAL that a receiver would frame differently.", "quantifier": "every report longer than 28 bytes", "why_tests_cant": "needs every length", "anchors": ["cbus/protocol/cal/extended.py::ExtendedCAL.encode"]}
{"id": "C14", "title": "IDENTIFY, RECALL and REPLY CALs round-trip", "statement": "Each IdentifyCAL with a defined attribute, RecallCAL with byte-sized fields and ReplyCAL with a byte-sized parameter and at most 30 data bytes is decoded back to itself, consuming exactly its own bytes, whatever follows; a ReplyCAL with longer data is truncated to its first 30 bytes and still framed correctly.", "quantifier": "every such CAL, every trailing data", "why_tests_cant": "all values by all continuations", "anchors": ["cbus/protocol/cal/identify.py::IdentifyCAL", "cbus/protocol/cal/recall.py::RecallCAL", "cbus/protocol/cal/reply.py::ReplyCAL", "cbus/protocol/pp_packet.py::PointToPointPacket.decode_cal"]}
{"id": "C15", "title": "A sequence of CALs decodes to exactly that sequence", "statement": "A point-to-point packet carrying any sequence of well-formed CALs is decoded to exactly the same CALs in the same order, none lost, merged or invented.", "quantifier": "every finite sequence of well-formed CALs of every kind", "why_tests_cant": "unbounded sequences", "anchors": ["cbus/protocol/pp_packet.py::PointToPointPacket.decode_packet", "cbus/protocol/pp_packet.py::PointToPointPacket.encode"]}
{"id": "C16", "title": "A sequence of lighting commands decodes to exactly that sequence", "statement": "Lighting on/off/terminate/ramp SALs with group addresses 0..255, levels 0..255 and any durations, encoded back to back, are decoded by the lighting application to exactly the same commands in order, ramp durations being replaced by the nearest supported duration not below them.", "quantifier": "every finite sequence of lighting SALs", "why_tests_cant": "unbounded sequences with data-dependent SAL lengths", "anchors": ["cbus/protocol/application/lighting.py::LightingSAL.decode_sals", "cbus/protocol/application/lighting.py::LightingRampSAL", "cbus/protocol/application/lighting.py::LightingOnSAL", "cbus/protocol/application/lighting.py::LightingOffSAL", "cbus/protocol/application/lighting.py::LightingTerminateRampSAL"]}
{"id": "C17", "title": "Malformed lighting data never disturbs the commands before it", "statement": "Whatever bytes follow a well-formed sequence of lighting commands, the decoder still returns those commands first and unchanged; lighting decoding never raises.", "quantifier": "every well-formed prefix followed by every byte string", "why_tests_cant": "arbitrary garbage of any length", "anchors": ["cbus/protocol/application/lighting.py::LightingSAL.decode_sals"]}
{"id": "C18", "title": "Clock updates round-trip for every date and time", "statement": "Every valid date (years 1..9999) and every time of day sent as clock updates is decoded to the same date and to the same hour, minute and second; requests decode to requests; any sequence of clock SALs decodes to that sequence. clock_update_sal makes one message of a date or a time, two of a datetime, and raises TypeError on anything else.", "quantifier": "every sequence of dates, times and requests", "why_tests_cant": "3.6 million dates, unbounded sequences", "anchors": ["cbus/protocol/application/clock.py::ClockUpdateSAL", "cbus/protocol/application/clock.py::ClockRequestSAL", "cbus/protocol/application/clock.py::ClockSAL.decode_sals", "cbus/protocol/application/clock.py::clock_update_sal"]}
{"id": "C19", "title": "The transmitted day of week is the calendar day of week", "statement": "The weekday byte sent with a date is 0..6, is 0 (Monday) on 1 January 0001 and advances by exactly one modulo seven from each calendar day to the next, across month ends, leap days and year ends.", "quantifier": "every valid date", "why_tests_cant": "every date in 9999 years including every leap rule", "anchors": ["cbus/protocol/application/clock.py::ClockUpdateSAL.encode"]}
{"id": "C20", "title": "An unknown clock variable does not swallow its neighbours", "statement": "A clock update for an unknown variable is skipped as one unit: the clock SALs after it are decoded as if it were absent.", "quantifier": "every unknown variable, every length, every following SAL sequence", "why_tests_cant": "unbounded continuations", "anchors": ["cbus/protocol/application/clock.py::ClockUpdateSAL.decode"]}
{"id": "C21", "title": "Temperatures are transmitted to within a quarter degree", "statement": "A temperature in 0.0..63.75 is transmitted as the largest multiple of 0.25 not above it, so multiples of 0.25 are exact and others lose less than 0.25; temperatures outside the range (including NaN and infinities) and group addresses outside 0..255 are rejected with ValueError.", "quantifier": "every finite temperature value, NaN, infinities; every group address", "why_tests_cant": "dense numeric domain", "anchors": ["cbus/protocol/application/temperature.py::TemperatureBroadcastSAL", "cbus/protocol/application/temperature.py::TemperatureSAL.decode_sals"]}
{"id": "C22", "title": "Enable-control variables round-trip", "statement": "Any sequence of EnableSetNetworkVariableSALs is decoded to the same sequence with variable and value reduced modulo 256.", "quantifier": "every finite sequence, every integer field", "why_tests_cant": "unbounded sequences", "anchors": ["cbus/protocol/application/enable.py::EnableSetNetworkVariableSAL", "cbus/protocol/application/enable.py::EnableSAL.decode_sals"]}
{"id": "C23", "title": "Status requests round-trip", "statement": "Any sequence of StatusRequestSALs is decoded to the same sequence, with the child application reduced modulo 256 and the group address rounded down to a multiple of 32 within a byte.", "quantifier": "every finite sequence, every integer field", "why_tests_cant": "unbounded sequences mixing two encodings", "anchors": ["cbus/protocol/application/status_request.py::StatusRequestSAL"]}
{"id": "C24", "title": "A packet never mixes applications", "statement": "After any sequence of append_sal and clear_sal calls (successful or raising), every SAL held by a PointToMultipointPacket belongs to the packet's application; an append of a SAL for another application raises ValueError and leaves the packet unchanged, and any SAL may be appended after clear_sal.", "quantifier": "every history of append_sal / clear_sal calls", "why_tests_cant": "unbounded histories", "anchors": ["cbus/protocol/pm_packet.py::PointToMultipointPacket.append_sal", "cbus/protocol/pm_packet.py::PointToMultipointPacket.clear_sal"]}
{"id": "C25", "title": "Commands to the PCI survive encode / decode", "statement": "A point-to-multipoint packet of SALs, sent as backslash + encode_packet() + confirmation code + CR, is decoded by decode_packet(from_pci=False) into a packet with the same application, SALs (modulo the documented quantisations), priority and confirmation code, consuming exactly the line, with or without checksum.", "quantifier": "every SAL sequence of every application, every confirmation code, every priority, every following buffer content", "why_tests_cant": "unbounded packets and continuations", "anchors": ["cbus/protocol/pm_packet.py::PointToMultipointPacket", "cbus/protocol/packet.py::decode_packet"]}
{"id": "C26", "title": "Events from the PCI survive encode / decode", "statement": "A point-to-multipoint packet with source address 1..255, sent as encode_packet() + CR LF, is decoded by decode_packet(from_pci=True) into a packet with the same application, SALs, priority and source address, consuming exactly the line.", "quantifier": "every SAL sequence, source address, priority and following buffer content", "why_tests_cant": "unbounded packets and continuations", "anchors": ["cbus/protocol/pm_packet.py::PointToMultipointPacket", "cbus/protocol/packet.py::decode_packet"]}
{"id": "C27", "title": "The source address of an event is reported faithfully", "statement": "For every event received from the PCI, the decoded packet's source_address is the address byte on the wire.", "quantifier": "every source address including 0", "why_tests_cant": "includes the corner value that code treats as false", "anchors": ["cbus/protocol/packet.py::decode_packet"]}
{"id": "C28", "title": "Point-to-point packets survive encode / decode", "statement": "An unbridged PointToPointPacket (unit address 0..255, any sequence of well-formed CALs) is decoded back to the same unit address, CALs, priority, source address / confirmation, consuming exactly the line.", "quantifier": "every such packet", "why_tests_cant": "unbounded CAL sequences", "anchors": ["cbus/protocol/pp_packet.py::PointToPointPacket", "cbus/protocol/packet.py::decode_packet"]}
{"id": "C29", "title": "Bridged point-to-point packets are decoded with their route", "statement": "A point-to-point packet routed through a bridge with 0..5 further hops is decoded with exactly those hops and the final unit address, and every malformed route code is rejected as an InvalidPacket.", "quantifier": "every bridge address, hop list and CAL sequence; every route code", "why_tests_cant": "six route lengths by all addresses by all payloads", "anchors": ["cbus/protocol/pp_packet.py::PointToPointPacket.decode_packet", "cbus/common.py::BRIDGE_LENGTHS"]}
{"id": "C30", "title": "Device management packets survive encode / decode", "statement": "A DeviceManagementPacket is decoded back with parameter and value reduced modulo 256 and the same priority and confirmation, from either direction, consuming exactly the line.", "quantifier": "every parameter, value, priority, checksum setting, confirmation code", "why_tests_cant": "unbounded integer fields", "anchors": ["cbus/protocol/dm_packet.py::DeviceManagementPacket", "cbus/protocol/packet.py::decode_packet"]}
{"id": "C31", "title": "Every lighting application address is decoded", "statement": "A packet for any lighting application address 0x30..0x5F carrying lighting commands is decoded into those commands.", "quantifier": "all 48 lighting application addresses, every command sequence", "why_tests_cant": "tests only use application 0x38", "anchors": ["cbus/protocol/application/lighting.py::_SUPPORTED_APPLICATIONS", "cbus/protocol/pm_packet.py::PointToMultipointPacket.decode_packet", "cbus/protocol/application/lighting.py::LightingSAL.application"]}
{"id": "C32", "title": "Corrupted frames are never acted on", "statement": "With checksums required and strict mode on, a complete line of base16 data whose checksum is wrong is reported as an InvalidPacket and never as any other packet, for both directions (direct commands, the lines starting with '@', carry no checksum by protocol and are not meant); in particular changing any single byte of the data of a valid frame never produces a packet.", "quantifier": "every line content", "why_tests_cant": "all possible frames", "anchors": ["cbus/protocol/packet.py::decode_packet", "cbus/common.py::validate_cbus_checksum"]}
{"id": "C33", "title": "decode_packet never consumes more than it was given", "statement": "decode_packet returns a position between 0 and the length of its input.", "quantifier": "every buffer, every flag combination", "why_tests_cant": "arbitrary byte strings", "anchors": ["cbus/protocol/packet.py::decode_packet"]}
{"id": "C34", "title": "decode_packet waits for complete messages and always makes progress", "statement": "If the buffer holds no complete message decode_packet returns (None, 0); whenever it returns a packet the position is positive; and if the buffer contains an end-of-line marker it never returns position 0.", "quantifier": "every buffer, every flag combination", "why_tests_cant": "arbitrary byte strings", "anchors": ["cbus/protocol/packet.py::decode_packet"]}
{"id": "C35", "title": "Decoding the first message does not depend on what follows it", "statement": "If decode_packet finds a message (or raises) on some buffer, it gives the same result on that buffer followed by any further bytes.", "quantifier": "every buffer, every continuation, every flag combination", "why_tests_cant": "all continuations", "anchors": ["cbus/protocol/packet.py::decode_packet"]}
{"id": "C36", "title": "No received bytes make the decoder raise", "statement": "decode_packet returns (reporting InvalidPacket for malformed input) and never raises, whatever bytes it is given.", "quantifier": "every byte string, every flag combination", "why_tests_cant": "arbitrary byte strings", "anchors": ["cbus/protocol/packet.py::decode_packet"]}
{"id": "C37", "title": "Confirmations are decoded and encoded faithfully", "statement": "A ConfirmationPacket for a valid code encodes to the code followed by '.' or '#', and decode_packet(from_pci=True) on that encoding followed by anything returns the same code and success flag at position 2; construction with an invalid code raises ValueError.", "quantifier": "every code, both outcomes, every continuation", "why_tests_cant": "all continuations", "anchors": ["cbus/protocol/confirm_packet.py::ConfirmationPacket", "cbus/protocol/packet.py::decode_packet"]}
{"id": "C38", "title": "Cancel and null inputs are discarded exactly", "statement": "In client-to-PCI direction, everything up to and including a '?' that precedes the first CR is discarded and nothing else; a leading 'null' is discarded as exactly four bytes; '~' is a reset of exactly one byte; '|' CR and '||' CR select smart mode.", "quantifier": "every buffer content around the special characters", "why_tests_cant": "arbitrary surrounding bytes", "anchors": ["cbus/protocol/packet.py::decode_packet"]}
{"id": "C39", "title": "The receive buffer is bounded", "statement": "After any history of data_received calls, whatever the data and whatever the handler does, the buffer holds at most 256 bytes; a chunk that would overflow it drops the buffer and raises ValueError, and a chunk over the limit raises ValueError leaving the buffer alone.", "quantifier": "every sequence of received chunks", "why_tests_cant": "unbounded histories", "anchors": ["cbus/protocol/buffered_protocol.py::BufferedProtocol.data_received", "cbus/protocol/cbus_protocol.py::CBusProtocol.__init__", "cbus/common.py::MAX_BUFFER_SIZE"]}
{"id": "C40", "title": "Client: how the stream is chopped does not matter", "statement": "For a PCIProtocol, delivering a byte stream in one data_received call or split arbitrarily over several produces the same sequence of events and writes and the same final state, as long as the size limit is not hit.", "quantifier": "every byte stream and every way of splitting it", "why_tests_cant": "exponentially many splits of unbounded streams", "anchors": ["cbus/protocol/buffered_protocol.py::BufferedProtocol._process_buffer", "cbus/protocol/cbus_protocol.py::CBusProtocol.handle_data", "cbus/protocol/pciprotocol.py::PCIProtocol.handle_cbus_packet"]}
{"id": "C41", "title": "Server: how the stream is chopped does not matter", "statement": "For a PCIServerProtocol, delivering a byte stream in one data_received call or split arbitrarily over several produces the same sequence of events and writes and the same final state, as long as the size limit is not hit.", "quantifier": "every byte stream and every way of splitting it", "why_tests_cant": "exponentially many splits of unbounded streams", "anchors": ["cbus/protocol/buffered_protocol.py::BufferedProtocol._process_buffer", "cbus/protocol/cbus_protocol.py::CBusProtocol.handle_data", "cbus/protocol/pciserverprotocol.py::PCIServerProtocol.handle_cbus_packet", "cbus/protocol/packet.py::decode_packet"]}
{"id": "C42", "title": "A malformed frame does not block the frames behind it", "statement": "After a malformed line is received, the following well-formed lines are still delivered.", "quantifier": "every malformed line, every following traffic", "why_tests_cant": "all malformed lines by all continuations", "anchors": ["cbus/protocol/buffered_protocol.py::BufferedProtocol._process_buffer", "cbus/protocol/packet.py::decode_packet"]}
{"id": "C43", "title": "Confirmation codes do not repeat within twenty commands", "statement": "Over any history of PCIProtocol calls, the codes attached to confirmed commands cycle through the 20 legal codes in order, so any 20 consecutive confirmed commands carry 20 different codes; the code returned to the caller is the one written, and calls that fail consume no code.", "quantifier": "every history of API calls, including failing ones, from any reachable state", "why_tests_cant": "unbounded histories", "anchors": ["cbus/protocol/pciprotocol.py::PCIProtocol._get_confirmation_code", "cbus/protocol/pciprotocol.py::PCIProtocol._send", "cbus/common.py::CONFIRMATION_CODES"]}
{"id": "C44", "title": "Each lighting call writes exactly one well-formed command", "statement": "A successful lighting_group_on / off / terminate_ramp / ramp call writes exactly one chunk: backslash, the base16 of the point-to-multipoint lighting packet for exactly the given group addresses in order, with valid checksum, the confirmation code, CR.", "quantifier": "every list of 1..9 valid group addresses, every duration and level", "why_tests_cant": "all argument combinations", "anchors": ["cbus/protocol/pciprotocol.py::PCIProtocol.lighting_group_on", "cbus/protocol/pciprotocol.py::PCIProtocol.lighting_group_off", "cbus/protocol/pciprotocol.py::PCIProtocol.lighting_group_ramp", "cbus/protocol/pciprotocol.py::PCIProtocol.lighting_group_terminate_ramp", "cbus/protocol/pciprotocol.py::PCIProtocol._send"]}
{"id": "C45", "title": "Rejected calls have no effect", "statement": "A lighting, identify or clock call that raises (more than nine addresses, none, an address outside 0..255, a level outside 0..255, not connected) writes nothing and changes no state; and these are exactly the cases in which the lighting calls raise.", "quantifier": "every argument list and connection state", "why_tests_cant": "unbounded argument lists", "anchors": ["cbus/protocol/pciprotocol.py::PCIProtocol.lighting_group_on", "cbus/protocol/pciprotocol.py::PCIProtocol._send"]}
{"id": "C46", "title": "Connecting resets and configures the PCI", "statement": "connection_made writes, in order, three resets and the three option commands that select application 0x38, interface options 3 = 0x0E and interface options 1 = 0x59, whatever happened on the object before.", "quantifier": "every prior history of the protocol object", "why_tests_cant": "unbounded histories (confirmation counter)", "anchors": ["cbus/protocol/pciprotocol.py::PCIProtocol.connection_made", "cbus/protocol/pciprotocol.py::PCIProtocol.pci_reset"]}
{"id": "C47", "title": "Each received lighting command raises exactly one event", "statement": "For every decoded point-to-multipoint packet, PCIProtocol invokes exactly one handler per lighting or clock SAL, of the matching kind and with the SAL's values and the packet's source address, in order, and none for other packets; confirmations and PCI errors invoke their handlers once.", "quantifier": "every packet with any SAL sequence", "why_tests_cant": "unbounded sequences", "anchors": ["cbus/protocol/pciprotocol.py::PCIProtocol.handle_cbus_packet"]}
{"id": "C48", "title": "Clock requests are answered exactly when enabled", "statement": "A PCIProtocol answers a clock request with exactly one clock update packet carrying both date and time when handle_clock_requests is set, and writes nothing otherwise.", "quantifier": "every request source, every current time, every state", "why_tests_cant": "all times", "anchors": ["cbus/protocol/pciprotocol.py::PCIProtocol.on_clock_request", "cbus/protocol/pciprotocol.py::PCIProtocol.clock_datetime"]}
{"id": "C49", "title": "The --no-clock option stops cmqttd answering clock requests", "statement": "A CBusHandler created with handle_clock_requests=False (cmqttd --no-clock) writes nothing in response to a clock request from the network.", "quantifier": "every request, every time", "why_tests_cant": "all states", "anchors": ["cbus/daemon/cmqttd.py::CBusHandler.on_clock_request", "cbus/protocol/pciprotocol.py::PCIProtocol.on_clock_request"]}
{"id": "C50", "title": "Interface options are applied and reset exactly", "statement": "After a DeviceManagementPacket to parameter 0x30 or 0x41 the simulated PCI's connect / checksum / basic-mode / monitor / idmon settings are exactly the bits 0, 3, not 4, 5, 6 of the value regardless of their previous settings; other parameters change nothing; a reset restores the power-on settings; the shortcut command sets connect and leaves basic mode, keeping the rest; no other packet changes any of them.", "quantifier": "every prior state, every parameter and value", "why_tests_cant": "all states by all values", "anchors": ["cbus/protocol/pciserverprotocol.py::PCIServerProtocol.handle_cbus_packet", "cbus/protocol/pciserverprotocol.py::PCIServerProtocol.on_reset"]}
{"id": "C51", "title": "Every accepted command is confirmed exactly once", "statement": "For each decoded command carrying a confirmation code, the simulated PCI writes exactly one success confirmation with that code if it handles the whole command, and none if it rejects it; commands without a code are never confirmed.", "quantifier": "every command packet and server state", "why_tests_cant": "unbounded SAL sequences", "anchors": ["cbus/protocol/pciserverprotocol.py::PCIServerProtocol.handle_cbus_packet", "cbus/protocol/pciserverprotocol.py::PCIServerProtocol.send_confirmation"]}
{"id": "C52", "title": "Queued packets are sent once, in order, after the triggering reply", "statement": "Packets queued by the simulated PCI are written exactly once, in the order they were queued, immediately after the next packet it sends; nothing queued is lost or duplicated over any history.", "quantifier": "every history of server inputs", "why_tests_cant": "unbounded histories", "anchors": ["cbus/protocol/pciserverprotocol.py::PCIServerProtocol._send_later", "cbus/protocol/pciserverprotocol.py::PCIServerProtocol._send"]}
{"id": "C53", "title": "Basic mode echoes exactly what was consumed", "statement": "While in basic mode the simulated PCI echoes every consumed byte exactly once and in order before acting on it, and in smart mode echoes nothing.", "quantifier": "every input and server state", "why_tests_cant": "arbitrary inputs", "anchors": ["cbus/protocol/cbus_protocol.py::CBusProtocol.handle_data", "cbus/protocol/pciserverprotocol.py::PCIServerProtocol.echo"]}
{"id": "C54", "title": "The unit presence report covers every unit block", "statement": "In basic mode a master-application status request makes the simulated PCI send status blocks starting at 0, 88 and 176 whose concatenation is the whole presence table, each with a valid checksum and a correct length field.", "quantifier": "every request and server state", "why_tests_cant": "length fields of all blocks", "anchors": ["cbus/protocol/pciserverprotocol.py::PCIServerProtocol.on_master_application_status", "cbus/protocol/cal/standard.py::StandardCAL"]}
{"id": "C55", "title": "Client commands reach a simulated PCI exactly", "statement": "Connect a PCIProtocol to a PCIServerProtocol in any state: after the connection set-up and any sequence of successful lighting calls, however the byte stream is chopped into pieces the server's buffer can hold, the server ends up in smart mode with checksums on, has raised exactly the corresponding lighting events in order, and has confirmed every command with its code in order.", "quantifier": "every server state, every sequence of lighting calls, every chopping", "why_tests_cant": "unbounded sequences by all choppings", "anchors": ["cbus/protocol/pciprotocol.py::PCIProtocol", "cbus/protocol/pciserverprotocol.py::PCIServerProtocol", "cbus/protocol/packet.py::decode_packet", "cbus/protocol/buffered_protocol.py::BufferedProtocol"]}
{"id": "C56", "title": "Events from a simulated PCI reach the client exactly", "statement": "Lighting on / off / terminate calls on a PCIServerProtocol in checksum mode with source addresses 1..255 raise exactly the corresponding events, in order and with the right source addresses, in a PCIProtocol with an empty buffer, however the stream is chopped.", "quantifier": "every sequence of server calls, every chopping", "why_tests_cant": "unbounded sequences by all choppings", "anchors": ["cbus/protocol/pciserverprotocol.py::PCIServerProtocol.lighting_group_on", "cbus/protocol/pciprotocol.py::PCIProtocol.handle_cbus_packet"]}
{"id": "C57", "title": "The first event after connecting is not lost", "statement": "When a PCIProtocol connects to a fresh PCIServerProtocol, the first lighting event the server sends afterwards is delivered to the client.", "quantifier": "every first event", "why_tests_cant": "needs the interleaving of echo, confirmation and event bytes", "anchors": ["cbus/protocol/pciserverprotocol.py::PCIServerProtocol.echo", "cbus/protocol/packet.py::decode_packet"]}
{"id": "C58", "title": "The simulated PCI can send ramp events", "statement": "PCIServerProtocol.lighting_group_ramp with a level in its documented range 0.0..1.0 (including the default) sends a ramp event.", "quantifier": "every documented level", "why_tests_cant": "dense numeric domain", "anchors": ["cbus/protocol/pciserverprotocol.py::PCIServerProtocol.lighting_group_ramp", "cbus/protocol/application/lighting.py::LightingRampSAL.encode"]}
{"id": "C59", "title": "Topics and group addresses correspond one to one", "statement": "get_topic_group_address inverts set_topic, state_topic and conf_topic for every group address 0..255; for other integers it raises ValueError; the set, state, config and binary-sensor topics of all group addresses are pairwise different.", "quantifier": "every integer group address, every pair", "why_tests_cant": "all pairs; unbounded integers", "anchors": ["cbus/daemon/cmqttd.py::get_topic_group_address", "cbus/daemon/cmqttd.py::set_topic", "cbus/daemon/cmqttd.py::state_topic", "cbus/daemon/cmqttd.py::conf_topic", "cbus/daemon/cmqttd.py::bin_sensor_state_topic", "cbus/daemon/cmqttd.py::bin_sensor_conf_topic"]}
{"id": "C60", "title": "An MQTT set message drives exactly its own group", "statement": "A JSON set message for a group address causes exactly one C-Bus command, for that group address only: on (full brightness, no transition), off (state other than ON) or ramp (clamped brightness and transition), and republishes the matching state; messages on other topics, unparsable topics or unparsable payloads cause none.", "quantifier": "every topic and payload", "why_tests_cant": "all JSON payloads by all topics", "anchors": ["cbus/daemon/cmqttd.py::MqttClient.on_message"]}
{"id": "C61", "title": "Out-of-range brightness is clamped", "statement": "A set message with state ON and any integer brightness behaves as if the brightness were clamped to 0..255, and a negative transition as 0.", "quantifier": "every integer brightness and transition", "why_tests_cant": "unbounded integers", "anchors": ["cbus/daemon/cmqttd.py::MqttClient.on_message"]}
{"id": "C62", "title": "Published state mirrors the C-Bus event", "statement": "Each lighting on / off / ramp event received from the C-Bus network makes cmqttd publish exactly one retained JSON state message on that group's state topic and one retained binary sensor message, with the event's level, duration and source address; other events publish nothing.", "quantifier": "every event sequence", "why_tests_cant": "unbounded sequences", "anchors": ["cbus/daemon/cmqttd.py::CBusHandler", "cbus/daemon/cmqttd.py::MqttClient.lighting_group_ramp"]}
{"id": "C63", "title": "The light state and the binary sensor agree", "statement": "Whenever cmqttd publishes a light state, state ON accompanies binary sensor ON and state OFF accompanies binary sensor OFF.", "quantifier": "every event", "why_tests_cant": "includes ramps to level 0", "anchors": ["cbus/daemon/cmqttd.py::MqttClient.lighting_group_ramp", "cbus/daemon/cmqttd.py::MqttClient.publish_binary_sensor"]}
{"id": "C64", "title": "C-Bus frames become MQTT messages end to end", "statement": "Any stream of well-formed lighting frames from the PCI, chopped arbitrarily, makes a connected CBusHandler publish exactly the state messages for those commands in order.", "quantifier": "every stream of frames and every chopping", "why_tests_cant": "unbounded streams", "anchors": ["cbus/daemon/cmqttd.py::CBusHandler", "cbus/protocol/packet.py::decode_packet", "cbus/protocol/buffered_protocol.py::BufferedProtocol"]}
{"id": "C65", "title": "MQTT set messages become C-Bus frames end to end", "statement": "For every group address, an ON, OFF or brightness set message makes cmqttd write one C-Bus line that a PCI decodes to the requested command for that group.", "quantifier": "every group address, brightness and transition", "why_tests_cant": "all argument combinations", "anchors": ["cbus/daemon/cmqttd.py::MqttClient.on_message", "cbus/protocol/pciprotocol.py::PCIProtocol._send", "cbus/protocol/packet.py::decode_packet"]}
{"id": "C66", "title": "Discovery announces every group exactly once", "statement": "On connecting to the broker cmqttd subscribes to exactly the 256 set topics and publishes exactly one light and one binary-sensor configuration per group address plus the meta device, on pairwise different topics, using the project label when there is one.", "quantifier": "every label table", "why_tests_cant": "256 groups by all label tables", "anchors": ["cbus/daemon/cmqttd.py::MqttClient.on_connect", "cbus/daemon/cmqttd.py::MqttClient.publish_all_lights"]}
{"id": "C67", "title": "cmqttd's own publications never trigger it", "statement": "No topic cmqttd publishes to is a topic on which on_message acts, so there is no feedback loop.", "quantifier": "every group address, every payload", "why_tests_cant": "all pairs of topics", "anchors": ["cbus/daemon/cmqttd.py::MqttClient.on_message", "cbus/daemon/cmqttd.py::MqttClient.publish"]}
{"id": "C68", "title": "Application handlers are registered consistently", "statement": "Over any sequence of registrations, an application ID once registered keeps its handler; a conflicting or out-of-range registration raises ValueError and changes nothing; afterwards get_application returns the handler for exactly the registered IDs.", "quantifier": "every history of registrations", "why_tests_cant": "unbounded histories", "anchors": ["cbus/protocol/application/__init__.py::_register_application", "cbus/protocol/application/__init__.py::get_application"]}
{"id": "C69", "title": "Labels come only from the one direct network's lighting application", "statement": "read_cbz_labels returns a label for a group address iff the project has exactly one non-bridge network with exactly one lighting application and that application has a group with that address and a non-default, non-blank name (the last such group wins); labels are stripped and never blank, '<Unused>' or 'Group n'.", "quantifier": "every project structure", "why_tests_cant": "unbounded project trees", "anchors": ["cbus/daemon/cmqttd.py::read_cbz_labels"]}
{"id": "C70", "title": "An empty project element does not become a label", "statement": "A group whose name element is empty in the project file gets no label.", "quantifier": "every project with such a group", "why_tests_cant": "needs the XML corner case", "anchors": ["cbus/toolkit/cbz.py::_Element.from_element", "cbus/daemon/cmqttd.py::read_cbz_labels"]}
{"id": "C71", "title": "Every project field is reachable", "statement": "No two fields of a project element class share a normalised name, so each XML attribute or child element feeds exactly one field.", "quantifier": "every element class", "why_tests_cant": "relation over all pairs of fields", "anchors": ["cbus/toolkit/cbz.py::_Element._normalise_name", "cbus/toolkit/cbz.py::_Element.from_element"]}
{"id": "C72", "title": "Credentials are read verbatim from the auth file", "statement": "read_auth sets the username to the first line and the password to the second line of the file, with surrounding whitespace removed, for every file content.", "quantifier": "every file content", "why_tests_cant": "unbounded text", "anchors": ["cbus/daemon/cmqttd.py::read_auth"]}
{"id": "C73", "title": "Periodic time synchronisation sends one update per period", "statement": "With a positive timesync_frequency the client sends one clock update immediately and one after each completed sleep until cancelled; with zero or a negative frequency it sends none.", "quantifier": "every number of periods, every frequency", "why_tests_cant": "unbounded runs", "anchors": ["cbus/protocol/pciprotocol.py::PCIProtocol.timesync", "cbus/protocol/pciprotocol.py::PCIProtocol.connection_made"]}
{"id": "C74", "title": "A command that is not supported does not stop the simulated PCI", "statement": "Every complete command line that the simulated PCI receives is taken out of its buffer, whatever its handlers make of it, so that later commands are still handled.", "quantifier": "every command line, mode and state", "why_tests_cant": "all packets by all modes by everything that follows", "anchors": ["cbus/protocol/pciserverprotocol.py::PCIServerProtocol.handle_cbus_packet", "cbus/protocol/pciserverprotocol.py::PCIServerProtocol.on_master_application_status", "cbus/protocol/buffered_protocol.py::BufferedProtocol.data_received"]}
{"id": "C75", "title": "A project file is read from exactly the right places", "statement": "A file that is not a ZIP archive is read as XML itself; a ZIP archive is accepted iff it has exactly one member and the name of that member ends in .xml, and that member is the one read.", "quantifier": "every file", "why_tests_cant": "all archives with all member lists", "anchors": ["cbus/toolkit/cbz.py::CBZ.__init__"]}
{"id": "C76", "title": "Project elements are read field by field", "statement": "Reading an XML element gives every field of its class the value of the same-named attributes and children (names compared without underscores and case), converted to the field's type: lists collect every such child in order, other fields get the last one; unrelated attributes and children change nothing.", "quantifier": "every XML element of every class", "why_tests_cant": "unbounded trees", "anchors": ["cbus/toolkit/cbz.py::_Element.from_element", "cbus/toolkit/cbz.py::_Element._normalise_name"]}
{"id": "C77", "title": "Project labels reach Home Assistant", "statement": "For every project file with one direct network and its lighting application, the names announced on MQTT for each group address are the stripped names of the groups in that file, and generic names for all the others.", "quantifier": "every list of groups", "why_tests_cant": "unbounded project trees, through three components", "anchors": ["cbus/toolkit/cbz.py::CBZ", "cbus/daemon/cmqttd.py::read_cbz_labels", "cbus/daemon/cmqttd.py::MqttClient.publish_all_lights"]}
{"id": "C78", "title": "A dump has every network, application, group and unit", "statement": "dump_labels writes, for every project it can read, exactly one entry for each address of a network, an application and its groups, and a unit, describing the last element with that address; the groups of a unit are the hexadecimal numbers of its GroupAddress parameters in order. The dump fails iff such a number cannot be read.", "quantifier": "every project structure", "why_tests_cant": "unbounded project trees", "anchors": ["cbus/toolkit/dump_labels.py::main", "cbus/toolkit/cbz.py::CBZ"]}
{"id": "C79", "title": "The graph shows which unit drives which group", "statement": "generate_graph draws, for every dump, one subgraph per network with one node per unit, one node per group address in use, and one arrow from a unit to each of its group addresses.", "quantifier": "every dump", "why_tests_cant": "unbounded numbers of units and groups", "anchors": ["cbus/toolkit/graph.py::generate_graph"]}
{"id": "C80", "title": "Unused channels are not drawn", "statement": "The group address 255, which marks an unused channel, does not appear in the graph.", "quantifier": "every dump", "why_tests_cant": "needs the right project", "anchors": ["cbus/toolkit/graph.py::generate_graph"]}
{"id": "C81", "title": "A failed dump leaves the output file alone", "statement": "dump_labels changes the output file only if the dump succeeds.", "quantifier": "every project file and option", "why_tests_cant": "all failing inputs", "anchors": ["cbus/toolkit/dump_labels.py::main"]}
{"id": "C82", "title": "The daemon connects to the broker as it is told", "statement": "Unless TLS is disabled, cmqttd sets up TLS before it connects to the broker, with the given authority and client certificate; it uses the given port or 8883 (1883 without TLS), and the user name and password of the given file; with only one of certificate and key it connects to nothing. It connects to the PCI first, and passes on the options for the clock and the project's labels.", "quantifier": "every combination of options", "why_tests_cant": "all options by all files", "anchors": ["cbus/daemon/cmqttd.py::_main"]}
{"id": "C83", "title": "The daemon connects to the given C-Bus host", "statement": "With --tcp HOST:PORT the daemon connects to HOST and PORT.", "quantifier": "every host name or address", "why_tests_cant": "unbounded texts", "anchors": ["cbus/daemon/cmqttd.py::_main"]}
{"id": "C84", "title": "decode_packet prints the packet", "statement": "The decode_packet tool prints the decoding of its argument.", "quantifier": "every argument and option", "why_tests_cant": "all packets", "anchors": ["cbus/tools/decode_packet.py::main", "cbus/tools/decode_packet.py::pretty_packet"]}
{"id": "C85", "title": "Documents are downloaded once and never overwritten", "statement": "fetch_protocol_docs writes a file for the terms and for every PDF link on the index page to the same server that is not there yet, no other file, no file twice, and no file that was already there.", "quantifier": "every index page and directory", "why_tests_cant": "unbounded pages", "anchors": ["cbus/tools/fetch_protocol_docs.py::DocumentationParser.handle_starttag", "cbus/tools/fetch_protocol_docs.py::download_file", "cbus/tools/fetch_protocol_docs.py::download_docs"]}
{"id": "C86", "title": "Documents are written only inside the destination", "statement": "fetch_protocol_docs writes files only directly inside the given directory.", "quantifier": "every index page", "why_tests_cant": "needs a hostile page", "anchors": ["cbus/tools/fetch_protocol_docs.py::download_file"]}
{"id": "C87", "title": "The MQTT client's socket is served while it is open", "statement": "Over every sequence of connections, the event loop watches exactly the socket that is open and runs at most one housekeeping task, which goes on while it succeeds and ends with the socket.", "quantifier": "every history of connections, writes and wake-ups", "why_tests_cant": "unbounded histories", "anchors": ["cbus/paho_asyncio.py::AsyncioHelper"]}
{"id": "C88", "title": "A client and a simulated PCI agree under every interleaving", "statement": "A client and a simulated PCI that it has set up, left to act at the same time with the bytes of both directions delivered in arbitrary pieces at arbitrary times: the simulated PCI carries out exactly the calls in order, the client is told of exactly their confirmations, in order and never before the call has been carried out, and of everything the simulated PCI reports.", "quantifier": "every interleaving of calls, reports and partial deliveries", "why_tests_cant": "unbounded concurrent executions", "anchors": ["cbus/protocol/pciprotocol.py::PCIProtocol", "cbus/protocol/pciserverprotocol.py::PCIServerProtocol", "cbus/protocol/buffered_protocol.py::BufferedProtocol.data_received"]}
{"id": "C89", "title": "The daemon keeps broker and network in step under every interleaving", "statement": "cmqttd between a broker and a simulated PCI, with messages, clock updates, reconnections, reports and partial deliveries in any order: the simulated PCI carries out exactly the commands that were asked for, in order, and the broker is sent exactly the confirmations of the messages, the announcements and the states for the events, each in order.", "quantifier": "every interleaving of messages, ticks, reconnections, reports and partial deliveries", "why_tests_cant": "unbounded concurrent executions", "anchors": ["cbus/daemon/cmqttd.py::CBusHandler", "cbus/daemon/cmqttd.py::MqttClient.on_message", "cbus/daemon/cmqttd.py::MqttClient.on_connect", "cbus/protocol/pciserverprotocol.py::PCIServerProtocol"]}
{"id": "C90", "title": "A lost connection is noticed", "statement": "When the connection to the PCI is lost, the object forgets the transport, resolves the future it was given, if any, and raises nothing; the future is not resolved before, and nothing is written until the next connection.", "quantifier": "every history of the daemon, however the object was created", "why_tests_cant": "unbounded histories", "anchors": ["cbus/protocol/pciprotocol.py::PCIProtocol.connection_lost", "cbus/protocol/pciprotocol.py::PCIProtocol._send"]}
{"id": "C91", "title": "A packet reads as the sequence of its parts", "statement": "len, indexing (from either end, IndexError outside), iteration and reversed of a PointToMultipointPacket and a PointToPointPacket give its SALs or CALs in order, and of a BinaryStatusReport and a LevelStatusReport its group states or levels.", "quantifier": "every packet and index", "why_tests_cant": "unbounded packets and indices", "anchors": ["cbus/protocol/pm_packet.py::PointToMultipointPacket.__getitem__", "cbus/protocol/pm_packet.py::PointToMultipointPacket.__len__", "cbus/protocol/pm_packet.py::PointToMultipointPacket.__iter__", "cbus/protocol/pp_packet.py::PointToPointPacket.__getitem__"]}
{"id": "C92", "title": "index finds an element of a packet", "statement": "index(x) gives the position of the first element of the packet that is x, between the bounds if any are given, and raises ValueError if there is none.", "quantifier": "every packet, element and bounds", "why_tests_cant": "unbounded packets and bounds", "anchors": ["cbus/protocol/pm_packet.py::PointToMultipointPacket.index", "cbus/protocol/pp_packet.py::PointToPointPacket.index"]}
{"id": "C93", "title": "The command line of cmqttd is read as it is documented", "statement": "A command line is accepted iff it is made of options in any order, each written as a short name, a long name or an unambiguous abbreviation, with its argument in the next word, behind = or right behind a short name (and short ones run together in one word), and there is no --help, numbers are numbers, files can be opened, a broker is given and exactly one of --serial and --tcp is; what comes out is what the last of each option says. For every command line that is accepted, TLS is disabled iff a word says so, the clock is disabled iff a word says so, exactly one port is set, and the addresses are words of the command line or ends of them.", "quantifier": "every list of words, every table of files", "why_tests_cant": "the command lines are unbounded, and abbreviations, joined options and repetitions interact", "anchors": ["cbus/daemon/cmqttd.py:310-419"]}
{"id": "C94", "title": "The container starts cmqttd with the options its variables promise", "statement": "entrypoint-cmqttd.sh starts nothing unless MQTT_SERVER and one of SERIAL_PORT and CNI_ADDR are set. Otherwise, if the values are plain words, cmqttd gets the broker, its port, the time synchronisation, the serial port in preference to the TCP address, no clock iff CBUS_CLOCK is set and not 1, no TLS iff MQTT_USE_TLS is set and not 1, and the certificates, client certificate (only with its key), login and project file that exist.", "quantifier": "every environment and every set of files", "why_tests_cant": "seven variables and five files, each present, empty or absent, with arbitrary values", "anchors": ["entrypoint-cmqttd.sh:8-93", "cbus/daemon/cmqttd.py:310-419"]}
{"id": "C95", "title": "Only MQTT_USE_TLS turns off TLS in the container", "statement": "Whatever the other variables contain, cmqttd is started by the container without TLS iff MQTT_USE_TLS is set, not empty and not 1.", "quantifier": "every environment", "why_tests_cant": "the other values are arbitrary texts", "anchors": ["entrypoint-cmqttd.sh:23-93"]}
{"id": "C96", "title": "Numbers and white space in texts are read as Python's manual says", "statement": "`int(s)` succeeds iff s is, apart from surrounding white space, an optional sign and digits of any script with single underscores between digits, and then gives their value; `int(s, 16)` likewise with letters a to f and an optional prefix 0x; otherwise ValueError is raised. `strip` removes exactly the white space in front and at the end. `str(i)` and `f'{i:03d}'` write i in ASCII digits, the latter with at least three characters.", "quantifier": "every text, every table of digits and white space that agrees with ASCII, every integer", "why_tests_cant": "the texts come from topics, messages and project files and are unbounded; the behaviour at signs, underscores and other scripts is rarely tried", "anchors": ["cbus/daemon/cmqttd.py:52-59", "cbus/daemon/cmqttd.py:149-154", "cbus/daemon/cmqttd.py:196", "cbus/toolkit/cbz.py:54-109", "cbus/toolkit/dump_labels.py:96-97"]}
{"id": "C97", "title": "A project file with which something is wrong raises the exception for the first thing wrong", "statement": "An attribute or a child's text is converted iff it is a value of the field's type, otherwise the exception is ValueError for a text that is no number or UUID and TypeError for a field that cannot be built from a text or where there is no text. An element fails iff one of its attributes or, failing that, the first wrong child in document order is wrong, with that one's exception. Labels that cannot be read raise AttributeError; a dump raises AttributeError or ValueError for the first unit whose GroupAddress parameter has no value or a part that is not hexadecimal.", "quantifier": "every XML tree, every class, every exception", "why_tests_cant": "which exception comes first depends on the whole tree, and on both fields and order", "anchors": ["cbus/toolkit/cbz.py:54-109", "cbus/daemon/cmqttd.py:274-307", "cbus/toolkit/dump_labels.py:31-110"]}
{"id": "C98", "title": "Everything received is decoded by one grammar of messages, and what is invalid carries its reason", "statement": "For every content of a receive buffer, every checksum and strictness setting and both directions, decode_packet returns exactly the result that a grammar written down separately assigns to the buffer: notifications, confirmations, special commands, cancelled and incomplete input, empty lines, and lines with their text, checksum, flags, source, confirmation, payload, applications, SALs and CALs. Invalid parts appear as an invalid packet with the remaining bytes and the exception of the rule that refuses them. The number of consumed bytes is part of the result. A buffer to which the grammar assigns nothing raises.", "quantifier": "every byte sequence, both checksum and strict settings, both directions", "why_tests_cant": "there are infinitely many buffers, and which rule refuses a malformed message, and with which exception, depends on the order of all checks", "anchors": ["cbus/protocol/packet.py:43-257", "cbus/protocol/pm_packet.py:99-114", "cbus/protocol/pp_packet.py:83-152", "cbus/protocol/dm_packet.py:43-64", "cbus/protocol/application/lighting.py:67-107", "cbus/protocol/cal/__init__.py:28-33", "cbus/protocol/cal/extended.py:58-75", "cbus/protocol/cal/reply.py:48-58", "cbus/protocol/application/clock.py:53-110", "cbus/protocol/application/temperature.py:56-110", "cbus/protocol/application/enable.py:46-90", "cbus/protocol/application/status_request.py:50-100"]}
{"id": "C99", "title": "Everything sent is written byte by byte as one specification says, or refused for the reason it gives", "statement": "For every packet object with valid clock dates and times, encode_packet returns exactly the characters that a specification written down separately assigns to it (flags, source, application, routing byte, every SAL or CAL in order, the checksum if asked for, all in upper-case hexadecimal; the special packets as their fixed strings), and where the specification names an exception, that exception is raised: the first part that cannot be written decides which one.", "quantifier": "every packet, with any number of SALs or CALs and any argument values", "why_tests_cant": "the packets and their arguments are unbounded, and which of several wrong parts is reported depends on the order of the checks", "anchors": ["cbus/protocol/base_packet.py:52-114", "cbus/protocol/pm_packet.py:116-136", "cbus/protocol/pp_packet.py:154-174", "cbus/protocol/dm_packet.py:66-77", "cbus/protocol/confirm_packet.py:31-41", "cbus/protocol/cal/report.py:113-128", "cbus/protocol/cal/report.py:205-212", "cbus/protocol/cal/extended.py:48-55", "cbus/protocol/application/lighting.py", "cbus/protocol/application/clock.py", "cbus/protocol/application/temperature.py", "cbus/protocol/application/enable.py", "cbus/protocol/application/status_request.py"]}
{"id": "C100", "title": "JSON read from the broker is what its text says, and JSON published is read back as what was meant", "statement": "json.loads accepts exactly the texts of the JSON grammar (with Python's NaN and Infinity) and returns the value the text stands for: escapes, surrogate pairs, numbers without leading zeros, white space, the last of several members of the same name; the same for the UTF-8 bytes of the text. json.dumps writes such a text of printable ASCII characters for every value with distinct names. Everything the daemon publishes as JSON - configurations with any names of lights, states, confirmations - is read back by the receiver as exactly the value that was meant.", "quantifier": "every text and every byte sequence in UTF-8, every JSON value, every message the daemon publishes, any names of lights", "why_tests_cant": "texts and nesting are unbounded; names come from a project file and may contain any character", "anchors": ["cbus/daemon/cmqttd.py:144-148", "cbus/daemon/cmqttd.py:173-176", "cbus/daemon/cmqttd.py:178-264"]}
{"id": "C101", "title": "The example scripts drive exactly the group they are given", "statement": "cbus_on, cbus_off and cbus_ramp with the decimal text of a group address (and two numbers) publish one message, which makes a connected daemon write exactly one line, the on, off or ramp command for exactly that group, and publish its new state; with anything that is no group address, or with arguments that do not make the message JSON, nothing happens. cbus_listen and cbus_config listen to exactly the topics on which the daemon publishes state and configuration of that light. Without an argument the scripts only print how they are called.", "quantifier": "every argument text, every state of a connected daemon, shells with and without [[", "why_tests_cant": "the arguments are pasted into a topic and a JSON text, so what they do depends on the parsers of the daemon for every text", "anchors": ["scripts/cbus_on:10-17", "scripts/cbus_off:10-17", "scripts/cbus_ramp:10-18", "scripts/cbus_listen:10-17", "scripts/cbus_config:10-20"]}
{"id": "C102", "title": "All that a client does with all that it receives", "statement": "Whatever a PCI sends, in whatever pieces, the client (and the daemon built on it) does exactly what a written conversation prescribes: it waits while a message is incomplete, skips what is not a message, calls one handler for each event of a message, in order, answers a request for the time with one well formed line that carries the next confirmation code and the time of that moment, raises exactly on overlong input and on lines that cannot be read, and otherwise neither writes nor changes anything.", "quantifier": "all starting buffers, all sequences of pieces of any content and length, all states of a connected client, all behaviours of the clock", "why_tests_cant": "The space of byte streams and of their divisions into pieces is infinite, and the property is about everything that happens and about nothing else happening.", "anchors": ["cbus/protocol/buffered_protocol.py:63-110", "cbus/protocol/cbus_protocol.py:54-79", "cbus/protocol/pciprotocol.py:99-369", "cbus/daemon/cmqttd.py:99-118"]}
{"id": "C103", "title": "All that the simulated PCI does with all that it receives", "statement": "Whatever a client sends, in whatever pieces, a connected simulated PCI does exactly what a written conversation prescribes: in basic mode it sends back what it takes out of its buffer; a reset, smart connect and the two option parameters change its settings as their bits say; commands are obeyed one after the other until one is not understood; what is obeyed completely is confirmed once, followed by the queued events; a clock update queues one on and one off event for random groups; a request for the status of all units is answered with three lines in basic mode and raises in smart mode; overlong input and lines that cannot be read raise; otherwise it neither writes nor changes anything.", "quantifier": "all starting buffers, all sequences of pieces of any content and length, all states of a connected simulated PCI, all outcomes of the random generator", "why_tests_cant": "The space of byte streams and of their divisions into pieces is infinite, modes change how later bytes are read, and the property is about everything that happens and about nothing else happening.", "anchors": ["cbus/protocol/pciserverprotocol.py:88-382", "cbus/protocol/buffered_protocol.py:63-110", "cbus/protocol/cbus_protocol.py:54-79"]}
{"id": "C104", "title": "All that the daemon does with all that happens to it", "statement": "Whatever happens to a running cmqttd, in whatever order - the C-Bus connection is made or lost, bytes arrive from the PCI, the clock task takes a turn, the broker connects, a message with any payload arrives on any topic - it does in each step exactly what is written down: setting up the PCI, resolving the future once, publishing the state of every light that the network reports if it has ever been connected to the broker, telling the time with the next confirmation code, announcing all lights, and for a message on the set topic of a light one line with the command and the two messages of its new state. A message on another topic or that is not JSON is ignored; JSON that is no set message, a negative brightness and a missing C-Bus connection raise the prescribed exception and nothing is sent.", "quantifier": "all sequences of steps in which bytes arrive only over a connection, all bytes, topics, payloads and labels, all settings and states, all readings of the clock", "why_tests_cant": "The histories are unbounded and interleave two peers; the property is about everything that is sent and about nothing else being sent.", "anchors": ["cbus/daemon/cmqttd.py:87-264", "cbus/protocol/pciprotocol.py:83-138", "cbus/protocol/pciprotocol.py:315-413", "cbus/protocol/pciprotocol.py:539-552"]}
{"id": "C105", "title": "The serial redirector passes everything on", "statement": "With `scripts/tcp_serial_redirect.py` between a serial interface and the network, as docs/hacking.rst proposes, every byte of either side reaches the other unchanged and in order, however it is cut into pieces and however both directions interleave; a client behind it therefore does exactly what it would do on the serial port. When the network side ends or fails, at most one more turn is passed on and then both loops end. Port, speed and newlines are taken from the options or the arguments as documented.", "quantifier": "all interleavings of turns of the two threads, all data and pieces, all options and arguments, all states of the client", "why_tests_cant": "The two threads can interleave in any way and the data can be cut anywhere; a test sees one interleaving and one cutting.", "anchors": ["scripts/tcp_serial_redirect.py:45-128", "scripts/tcp_serial_redirect.py:257-345", "docs/hacking.rst:47-70"]}
{"id": "C106", "title": "The redirector converts every newline", "statement": "With `--convert`, each newline of one side becomes a newline of the other and everything else stays, however the stream is cut into pieces; with CR+LF on the serial side (the default) a text that goes there and back is unchanged.", "quantifier": "all texts, all cuttings, the three kinds of newlines on each side", "why_tests_cant": "Whether a newline is cut in two depends on timing; a test sends whole lines.", "anchors": ["scripts/tcp_serial_redirect.py:77-80", "scripts/tcp_serial_redirect.py:108-111"]}
{"id": "C107", "title": "A discovery query is answered as a network interface answers it", "statement": "`experiments/cni_discovery.py` answers every datagram that begins with the query command, and no other, with exactly one datagram to the sender, in the layout of docs/cni-discovery.rst and with the port on which interfaces listen, 10001; its answers are not answered in turn.", "quantifier": "all datagrams and senders", "why_tests_cant": "Any datagram can arrive on a broadcast port; a test sends a few.", "anchors": ["experiments/cni_discovery.py:34-95", "docs/cni-discovery.rst:10-48"]}
{"id": "C108", "title": "A standard status report is written as one and read back as it was", "statement": "StandardCAL.encode writes, for any application, block and group states, a CAL that announces a standard status report; decode_cal reads the rest back as the same application, block and states (padded to a multiple of four); encode_packet is its base16 text, with a checksum if asked for; decode_cal raises IndexError on fewer than two bytes and nothing otherwise.", "quantifier": "every application, block and list of group states; every byte string", "why_tests_cant": "unbounded lists; the tests never call decode_cal", "anchors": ["cbus/protocol/cal/standard.py::StandardCAL.encode", "cbus/protocol/cal/standard.py::StandardCAL.encode_packet", "cbus/protocol/cal/standard.py::StandardCAL.decode_cal"]}
{"id": "C109", "title": "A connection that the broker refuses is not taken for a connection", "statement": "When the broker refuses the connection (return code other than 0), on_connect subscribes to nothing, publishes nothing and leaves the C-Bus side without an MQTT client; when it accepts, all lights are announced.", "quantifier": "every return code, label table and state", "why_tests_cant": "needs a broker that refuses; the tests have none", "anchors": ["cbus/daemon/cmqttd.py::MqttClient.on_connect"]}
{"id": "C110", "title": "Reports from the network keep a TCP connection up and all become messages", "statement": "A daemon connected to a network interface over TCP publishes the messages for all the events that are reported to it and stays connected, however the reports are cut into pieces; it ends only if what arrives cannot be read.", "quantifier": "every sequence of reports, every chopping, every time and state", "why_tests_cant": "a burst depends on timing; no test connects through a socket", "anchors": ["cbus/protocol/buffered_protocol.py::BufferedProtocol.data_received", "cbus/protocol/pciprotocol.py::PCIProtocol.connection_lost", "cbus/daemon/cmqttd.py:424-469"]}
{"id": "C111", "title": "Only documents are saved as documents", "statement": "Whatever the server answers, every file that fetch_protocol_docs saves contains the document that the server has under a link with that name; files that were there are left alone, a run that ends well leaves a file for every document of the page, and a run that fails can be repeated.", "quantifier": "every index page, every answer to every request, every destination and its files, every number of runs", "why_tests_cant": "no test makes requests, let alone ones that fail", "anchors": ["cbus/tools/fetch_protocol_docs.py::download_file", "cbus/tools/fetch_protocol_docs.py::download_docs"]}
{"id": "C112", "title": "The command lines of the tools are read as they are documented", "statement": "dump_labels takes one file, with --output and --pretty; graph takes one file that can be opened, with --output, which is required; fetch_protocol_docs takes one destination; the test program of pciprotocol takes exactly one of --serial and --tcp and opens that serial port or connects to that host and port; the simulated PCI takes an address and a port, which are 127.0.0.1 and 10001 if they are not given. For every list of words the tool accepts it iff it is a line of such options (short, long, abbreviated, run together, with their arguments in one of the usual places) and words, without --help, and the last of each option counts. decode_packet reads its options likewise but accepts no command line.", "quantifier": "every list of words, every table of files that can be opened", "why_tests_cant": "the command lines are unbounded, and abbreviations, negative numbers, joined options and double dashes interact", "anchors": ["cbus/toolkit/dump_labels.py:31-59", "cbus/toolkit/graph.py:74-91", "cbus/tools/decode_packet.py:38-69", "cbus/tools/fetch_protocol_docs.py:114-125", "cbus/protocol/pciprotocol.py:582-624", "cbus/protocol/pciserverprotocol.py:492-497"]}
{"id": "C113", "title": "The command line of the redirector is read as it is documented", "statement": "For every list of words, `scripts/tcp_serial_redirect.py` accepts it iff it consists of its options (by letter, by name or by an abbreviation that fits one name only, with arguments in the next word, behind the letter or behind `=`) and at most a port and a speed, without --help, with numbers where numbers are needed and with known newlines, and with a port from the options or from the arguments but not both; the last of each option counts. The help is printed iff it is asked for before anything wrong. It opens the serial port with the given settings, sets the given lines and then listens on the given port iff the serial port could be opened. It ends with code 0 after the help, 2 if it does not accept the line and 1 if the port cannot be opened.", "quantifier": "every list of words, every reading of numbers, whether or not the port can be opened, everything that happens later", "why_tests_cant": "command lines are unbounded and abbreviations, joined letters, arguments that look like options and double dashes interact", "anchors": ["scripts/tcp_serial_redirect.py:131-326"]}
{"id": "C114", "title": "The redirector serves one connection after another", "statement": "Whatever happens to the redirector, in whatever order, it serves one connection at a time: nobody is accepted before the last has been left, each gets only data of the serial port that arrive while it is served, a later connection is served exactly as the first, and after Ctrl-C nothing is done. With --spy all that is passed on is shown, as it is on the serial port, in a form from which every byte can be read back; without it nothing is shown.", "quantifier": "all sequences of connections, failures to accept, turns of both loops, failures of the port and interrupts; all data and settings", "why_tests_cant": "the histories are unbounded and two threads interleave; a test sees one session", "anchors": ["scripts/tcp_serial_redirect.py:64-122", "scripts/tcp_serial_redirect.py:327-349"]}
{"id": "C115", "title": "A serial port that fails ends the connection", "statement": "When the serial port of the redirector fails (an adapter is pulled out), the connection that is being served ends, so that the client at its other end notices and can connect again.", "quantifier": "all states of the loops, all that happens later", "why_tests_cant": "it takes a failing port, and the property is about all that comes later", "anchors": ["scripts/tcp_serial_redirect.py:64-91", "scripts/tcp_serial_redirect.py:101-122", "scripts/tcp_serial_redirect.py:327-349"]}
{"id": "C116", "title": "The simulated PCI serves each client as if there were no others", "statement": "Every client that connects to the simulated PCI program is greeted with the power-on notice and then gets exactly what a PCI in the state of power-up answers to the pieces that this client sends. What other clients send, when they come and go, and whether their connections end with an error makes no difference to it. A client that never connects is sent nothing.", "quantifier": "for all numbers of clients, all interleavings of connecting, sending any bytes in any pieces and leaving, and all confirmations' random numbers", "why_tests_cant": "The interleavings of several clients are unbounded, and shared state between protocol objects (a class attribute, a module global, a single protocol instance) shows only when two sessions overlap in the right way; the tests drive one server object at a time.", "anchors": ["cbus/protocol/pciserverprotocol.py:60-86", "cbus/protocol/pciserverprotocol.py:479-489", "cbus/protocol/buffered_protocol.py:63-86"]}
{"id": "C117", "title": "The daemon logs where and as much as it is told", "statement": "With --log-file, everything the daemon logs at or above --verbosity goes to that file; without it, to standard output; nothing below the verbosity is written. (False: cbus.common configures logging when it is imported, so that the daemon's own configuration does nothing.)", "quantifier": "for every --log-file and --verbosity, every logger of the package and every level", "why_tests_cant": "No test starts the daemon and looks where its log went; whether a call of basicConfig has an effect depends on what other modules did when they were imported.", "anchors": ["cbus/common.py:311", "cbus/daemon/cmqttd.py:425-427", "cbus/protocol/pciprotocol.py:610-612", "cbus/protocol/pciserverprotocol.py:47-48", "docs/cmqttd.rst (Logging)"]}
{"id": "C118", "title": "A PCI that powers up again is configured again", "statement": "When the PCI announces that it has powered up, the client configures it as it does when it connects, so that events go on being understood. (False: a power-up is only logged, and on_pci_power_up is never called. From then on the PCI sends no checksums, the client requires them, and every event is lost.)", "quantifier": "for every client whatever its handlers do, every later sequence of network events and every chopping of the bytes", "why_tests_cant": "The tests never let a PCI restart under a connected client; that nothing at all gets through needs all events, units and choppings.", "anchors": ["cbus/protocol/pciprotocol.py:99-138", "cbus/protocol/pciprotocol.py:281-290", "cbus/protocol/pciprotocol.py:371-413", "cbus/protocol/pciserverprotocol.py:75-90"]}
{"id": "C119", "title": "A ramp that C-Bus has no duration for is refused", "statement": "lighting_group_ramp raises an exception for a duration of more than 1020 seconds, as its documentation says. (False: it sends the ramp of 1020 seconds.)", "quantifier": "for every group address, level, longer duration and state of the client", "why_tests_cant": "A test tries a few durations; the documented refusal concerns all of the unboundedly many longer ones.", "anchors": ["cbus/protocol/pciprotocol.py:486-510", "cbus/common.py:314-328"]}
{"id": "C120", "title": "A lost connection to the broker is made again", "statement": "After the connection to the broker is lost, the daemon connects again. (False: nothing is left in the event loop that would call the MQTT client, and publishing without a socket does nothing. The daemon goes on without a broker until it is restarted, and does not end.)", "quantifier": "for every history of calls of the MQTT client before and after the loss", "why_tests_cant": "It is about all continuations of an execution after a fault that tests do not inject.", "anchors": ["cbus/paho_asyncio.py:6-35", "cbus/daemon/cmqttd.py:465-469"]}
{"id": "C121", "title": "The daemon writes nothing to the network but what it is there for", "statement": "Whatever happens to cmqttd in whatever order, everything it writes to the PCI is exactly one line, and that line is: a reset or one of its three settings, when the connection is made; the date, the time and an unknown daylight saving flag together in one clock command, when it is the turn of the clock task or when something is received; or one command for one group of the lighting application, when a message on the set topic of that very group has come from the broker. So nothing that is received from the network and nothing on another topic ever moves a light, and no payload can put a second command into a line.", "quantifier": "every sequence of connections, losses, bytes received, ticks and messages", "why_tests_cant": "A test looks at the output for a few inputs; that there is no input at all for which something else is written needs every topic, every payload and every stream of bytes from the network.", "anchors": ["cbus/daemon/cmqttd.py:99-171", "cbus/protocol/pciprotocol.py:83-170", "cbus/protocol/pciprotocol.py:328-580", "docs/cmqttd.rst"]}
{"id": "C122", "title": "The broker shows the level that a light comes to", "statement": "Once the network has said which level a light is to have, the last brightness that cmqttd has published for its group is the level at which the light comes to rest, also when a ramp is stopped on its way (terminate ramp).", "quantifier": "every history of timed lighting events, every light", "why_tests_cant": "What a light shows at the end depends on the whole history of events and on the times between them; a test fixes one history.", "anchors": ["cbus/daemon/cmqttd.py:99-115", "cbus/daemon/cmqttd.py:228-276", "cbus/protocol/pciprotocol.py:218-230"]}
{"id": "C123", "title": "Only the default lighting application is published", "statement": "Whatever bytes arrive from the network, in whatever pieces, each message that cmqttd publishes because of them is the state of a group for which one whole line among them has a lighting command of the default application 0x38, sent to all units without a route, with a valid checksum; commands of other applications, of other lighting applications, in damaged lines, in other kinds of packets or put together from pieces of different lines are never shown.", "quantifier": "every sequence of bytes, every content of the receive buffer", "why_tests_cant": "That nothing else leads to a publication is a statement about all byte sequences, including the damaged ones; tests feed a few good frames.", "anchors": ["cbus/daemon/cmqttd.py:99-115", "cbus/protocol/pciprotocol.py:99-138", "cbus/protocol/packet.py", "docs/cmqttd.rst:35"]}
{"id": "C124", "title": "Every message that is received calls a handler", "statement": "Whenever PCIProtocol receives a whole and valid message it calls at least one of its on_... handlers, so that a subclass can take notice of everything the network says (status reports among it, for which on_mmi is documented).", "quantifier": "every valid message of up to 256 characters, every state of a connected client", "why_tests_cant": "The kinds of messages and their contents are unbounded; which of them fall through every branch of the dispatcher is only visible over all of them.", "anchors": ["cbus/protocol/pciprotocol.py:99-138", "cbus/protocol/pciprotocol.py:152-170", "cbus/protocol/pciprotocol.py:234-290"]}
{"id": "C125", "title": "A command that the PCI refuses is not taken for carried out", "statement": "When the PCI answers a command, that cmqttd gave for a message from the broker, with the confirmation code of that command and another character than a full stop, the daemon sends something to the PCI or tells the broker. (False: the refusal only reaches on_confirmation, which logs it. What holds for every message, every state and every answer: on_confirmation is called exactly once, with the code of that very command, and is told whether it was accepted.)", "quantifier": "all messages, all connected states with an empty buffer, all commands written, all confirmation characters", "why_tests_cant": "A test checks the positive confirmation of a chosen packet; nothing is observable in it about what a refusal should change, and the claim ranges over every command and every state of the code counter.", "anchors": ["cbus/protocol/pciprotocol.py:97-150", "cbus/protocol/pciprotocol.py:315-372", "cbus/daemon/cmqttd.py:61-130"]}
{"id": "C126", "title": "When all is quiet the broker shows what the lights are", "statement": "cmqttd, its PCI and the network, with commands from the broker on their way to the network and commands of other units on their way to the daemon, in any order: whenever nothing is on its way any more, the broker shows for every light the level that the last command on the network has given it. (False: a message and the command of another unit for the same light that cross each other leave the broker showing the wrong one for good, since the daemon publishes a state before its command is on the network. It holds for every history in which no two commands for the same light cross.)", "quantifier": "every history of messages, commands of other units, deliveries in both directions, confirmations and clock ticks; every light; every state of the daemon", "why_tests_cant": "The race needs two parties and a particular order of four deliveries; the positive part is an invariant over histories of any length.", "anchors": ["cbus/daemon/cmqttd.py:99-183", "cbus/daemon/cmqttd.py:241-279", "cbus/protocol/pciprotocol.py:327-372"]}
{"id": "C127", "title": "A light that is set through one daemon is shown alike by another", "statement": "For every message on which cmqttd sends a command to the network, every other cmqttd on the same network that is told of this command publishes the same state, brightness and binary sensor for the same light, and as transition the time that the light actually takes for the time that was asked for.", "quantifier": "every topic and payload, every pair of states of the two daemons, every source address", "why_tests_cant": "Two directions of the code (from JSON to bytes, from bytes to JSON) must agree for every group, level and transition; a test can only compare a few.", "anchors": ["cbus/daemon/cmqttd.py:99-183", "cbus/daemon/cmqttd.py:241-279", "cbus/protocol/application/lighting.py:1-284"]}
{"id": "C128", "title": "Every state that cmqttd shows has been said", "statement": "Whatever happens to cmqttd from its start on, each state that it publishes for a group was either asked for in that moment by a message on the set topic of that very group, or it is what one line of the network says, which stands in one piece in what was received up to then. So of a light of which nobody has said anything nothing is shown, and halves of different lines are never put together.", "quantifier": "every history of connections, losses, bytes received in any pieces, ticks and messages of a daemon whose receive buffer is empty at first", "why_tests_cant": "the claim is about all the ways in which bytes can be cut into pieces and mixed with other happenings, and about what is never published", "anchors": ["cbus/protocol/buffered_protocol.py:63-85", "cbus/daemon/cmqttd.py:87-118", "cbus/daemon/cmqttd.py:129-171", "cbus/daemon/cmqttd.py:235-264"]}
{"id": "C129", "title": "Connecting to the broker moves no light", "statement": "Whenever cmqttd connects to the broker, for the first time or again, it writes nothing to the C-Bus network because of that: the states and configurations that it has left at the broker do not come back to it as commands, and neither does anything else that the broker has kept.", "quantifier": "every history of publications of others, connections to the broker and their losses, and happenings on the C-Bus side; every content of the payloads", "why_tests_cant": "the claim is about all histories of two programs, and what the broker keeps depends on all that was ever published", "anchors": ["cbus/daemon/cmqttd.py:123-127", "cbus/daemon/cmqttd.py:129-171", "cbus/daemon/cmqttd.py:173-176"]}
{"id": "C130", "title": "A light takes the time that it is told to take", "statement": "When a message on the set topic of a group asks for a transition of up to 1020 seconds, the command that cmqttd puts on the network takes the shortest time that C-Bus has and that is not shorter than asked.", "quantifier": "every set message that a connected daemon can carry out, every transition from 0 to 1020 seconds, also with fractions", "why_tests_cant": "transitions are any numbers, and the claim relates them to the times of the sixteen ramp commands", "anchors": ["cbus/daemon/cmqttd.py:148-171", "docs/cmqttd.rst:300-310", "cbus/common.py:314-328"]}
{"id": "C131", "title": "The transition that is shown is the one that the light takes", "statement": "The transition in the state that cmqttd publishes when it carries out a set message is the time that the command takes on the network, so that it is the same that any other unit and any other daemon sees.", "quantifier": "every set message that a connected daemon can carry out", "why_tests_cant": "transitions are any numbers, and the claim relates what is published to what is written to the network", "anchors": ["cbus/daemon/cmqttd.py:148-171", "cbus/daemon/cmqttd.py:255-264"]}
{"id": "C132", "title": "A directory of CA certificates is trusted", "statement": "With --broker-ca and a directory of CA certificates, as its help and the documentation of the container describe it, the daemon connects over TLS to a broker whose certificate is from one of the authorities in the directory.", "quantifier": "all worlds (devices, hosts, files, brokers, certificates), all options and project files, all environments of the container", "why_tests_cant": "Unit tests do not start the daemon; whether a directory can be given depends on which argument of the ssl module the option ends up in, for every directory and every broker.", "anchors": ["cbus/daemon/cmqttd.py:358-361 --broker-ca", "cbus/daemon/cmqttd.py:457-463 _main", "entrypoint-cmqttd.sh:49-55"]}
{"id": "C133", "title": "A password goes only to a broker that is trusted", "statement": "Unless TLS is disabled, the daemon connects to a broker, and so gives it the user name and the password of the auth file, only if the certificate of the broker is for the name that was given and from an authority that was asked for: one of the file of --broker-ca, or one of Python's if that is not given. The certificate that the daemon itself shows is the one that was given, if any.", "quantifier": "all worlds (devices, hosts, files, brokers, certificates), all options and project files", "why_tests_cant": "That no combination of options and no failure on the way leads to a connection without verification is a statement about all of them.", "anchors": ["cbus/daemon/cmqttd.py:450-467 _main", "cbus/daemon/cmqttd.py:358-378 options"]}
{"id": "C134", "title": "The daemon starts completely or ends", "statement": "The daemon runs exactly if its command line and project file are good, the PCI can be opened, the files that TLS needs are good, the address, the port and the keepalive are such as MQTT allows (not empty, positive, from 0 to 65535), and a broker answers at the given address and port within the time of the keepalive, with a trusted certificate if TLS is used. The steps are done in one order, nothing is done after a step that fails, and the connection to the broker comes last, so that a broker never hears of a daemon without a PCI.", "quantifier": "all worlds (devices, hosts, files, brokers, certificates), all options and project files", "why_tests_cant": "It speaks of every way in which every step can fail; tests do not start the daemon.", "anchors": ["cbus/daemon/cmqttd.py:421-469 _main"]}
{"id": "C135", "title": "The variables of the container decide what the daemon does", "statement": "When a container runs, the steps that it has taken are exactly those that its variables and files ask for: the serial port or the CNI is opened, the user name and password of the file are set if there is one, TLS is set up with the files that are there unless it is turned off, and the broker is called at the address and the port that are given, or the port that is usual with or without TLS. The handler sets the PCI up, sends the time at once and after every so many seconds if the number given is positive and never otherwise, is set to answer requests for the time unless told not to, and announces the lights under the names of the project file, or generated names without one.", "quantifier": "all environments whose values are plain words, all files, all worlds in which the container comes to run, all handlers and states of the clients, all numbers of seconds", "why_tests_cant": "It composes the shell script, the command line, the start of the daemon, the client of the network and that of the broker; a test of one of them cannot see a value lost between two, and the combinations of variables and files are unbounded.", "anchors": ["entrypoint-cmqttd.sh:1-93", "cbus/daemon/cmqttd.py:92-95, 421-469", "cbus/protocol/pciprotocol.py:69-150"]}
{"id": "C136", "title": "A UTF-8 auth file gives its user name and password in every locale", "statement": "If the file given with --broker-auth is in UTF-8, as its help demands, and its first line is the user name and its second the password, whatever the line endings, then read_auth sets exactly those, whatever the encoding of the machine's locale is; a file that cannot be decoded never leads to a login.", "quantifier": "every user name, password, rest of the file, line ending and locale encoding that contains ASCII", "why_tests_cant": "encodings times unbounded texts; tests run in one locale", "anchors": ["cbus/daemon/cmqttd.py::_main", "cbus/daemon/cmqttd.py::read_auth"]}
{"id": "C137", "title": "The documented docker commands connect as the documentation says", "statement": "The three `docker run` commands of the documentation open the PCI and connect to the broker that they name: the first and the third without TLS on port 1883, the second with TLS on port 8883 and with the user name and password of /etc/cmqttd/auth; and no variable other than the seven documented ones has any influence.", "quantifier": "every environment, every content of the files, every world in which devices and brokers may fail", "why_tests_cant": "the commands run in containers that tests do not have; the influence of a variable is a statement about all environments", "anchors": ["entrypoint-cmqttd.sh", "docs/cmqttd.rst", "cbus/daemon/cmqttd.py::_main"]}
{"id": "C138", "title": "A quiet connection to the broker is kept up", "statement": "While the broker answers within the keepalive and the event loop is not held up, the connection to the broker stays open however little or much is sent: the client never closes it, and never stays silent for one and a half times the keepalive, after which the broker would close it. (False for a keepalive of one or two seconds, as the keepalive is looked at once a second only; true from three seconds on.)", "quantifier": "all keepalives, all histories of packets and calls of loop_misc at any times, all rhythms of the housekeeping task", "why_tests_cant": "The failure needs a coincidence of times; tests sample a few moments of a connection that lasts for months.", "anchors": ["cbus/paho_asyncio.py:30-35", "cbus/daemon/cmqttd.py:467"]}
{"id": "C139", "title": "A broker that is gone is noticed", "statement": "If nothing comes from the broker any more, the client closes the connection within twice the keepalive and the pause of the housekeeping task, whatever the daemon goes on sending; with a keepalive of 0 it never does.", "quantifier": "all positive keepalives, all histories before and after the broker falls silent, all rhythms of the housekeeping task", "why_tests_cant": "The bound is over all moments at which the broker can fall silent, with or without a ping under way.", "anchors": ["cbus/paho_asyncio.py:30-35", "cbus/daemon/cmqttd.py:467"]}
{"id": "C140", "title": "Every document is saved with its own contents", "statement": "After a run of fetch_protocol_docs that ends well, each document that the index links to is in the destination under its name, with the contents that the server has for it. (False: a document whose name was already used by another one is skipped like one that was downloaded earlier.)", "quantifier": "all pages, servers, destinations and files", "why_tests_cant": "The index page and what the server has are not under the control of a test.", "anchors": ["cbus/tools/fetch_protocol_docs.py:55-85", "cbus/tools/fetch_protocol_docs.py:88-111"]}
{"id": "C141", "title": "What cmqttd does depends on nothing that it has done before", "statement": "Two daemons to which the same happens do the same, if they are connected to the same things and have the same in their receive buffers: whatever has happened to them before, and whatever their clocks show. Only confirmation codes and the time in the lines that tell the time may differ. What a message from the broker does depends on even less: only on whether there is a connection to C-Bus. So a message that the broker delivers twice gives the same command and the same state twice, and leaves lights and broker as once.", "quantifier": "every pair of states, of histories before and of clocks; every sequence of connections, losses, bytes received, ticks and messages that follows; every topic and payload", "why_tests_cant": "It compares all pairs of histories (a property of two runs, not of one); tests can only compare chosen pairs.", "anchors": ["cbus/daemon/cmqttd.py:87-213", "cbus/daemon/cmqttd.py:215-420", "cbus/protocol/pciprotocol.py:68-81", "cbus/protocol/pciprotocol.py:315-369"]}
{"id": "C142", "title": "Daemons do not set each other off", "statement": "Several cmqttd on the same network and the same broker, each with its own interface: whatever one of them writes, for whatever reason, another one that hears of it on the network writes nothing; and whatever one of them publishes, no other one acts on it when the broker delivers it. So every line that any of them ever writes is written because of something from outside - a message, a tick, a connection, another unit - and commands never go round in circles.", "quantifier": "every number of daemons, every state of each, every history of things from outside, lines heard and messages delivered, with any delay and any number of times", "why_tests_cant": "It is about unbounded numbers of daemons and unbounded chains of cause and effect between them; a test can only follow some.", "anchors": ["cbus/daemon/cmqttd.py:87-213", "cbus/daemon/cmqttd.py:215-420", "cbus/protocol/pciprotocol.py:120-210"]}
{"id": "C143", "title": "The downloads are what the links refer to", "statement": "For every index page, the addresses that fetch_protocol_docs requests are those that the references of the page refer to by RFC 3986, section 5 (resolved against the address of the index), as far as they are PDF documents of the same server over HTTP or HTTPS - each once per reference, in the order of the page, with the parts of the address as they were given and the scheme in small letters.", "quantifier": "every list of references with any scheme, authority, path, query and fragment that RFC 3986 allows to be told apart", "why_tests_cant": "References are unbounded texts with unbounded numbers of path segments and dots; the unit tests do not call the tool.", "anchors": ["cbus/tools/fetch_protocol_docs.py:27-52", "cbus/tools/fetch_protocol_docs.py:69-70"]}
{"id": "C144", "title": "No link keeps the tool from the documents", "statement": "For every index page and every directory, if all requests are answered then every document that the page refers to is in the directory when fetch_protocol_docs ends, whatever other links the page has.", "quantifier": "every page (list of start tags with attributes), every destination, every earlier contents, every server", "why_tests_cant": "A page may contain any texts as links, and one among unboundedly many is enough to change what becomes of the others.", "anchors": ["cbus/tools/fetch_protocol_docs.py:38-52", "cbus/tools/fetch_protocol_docs.py:55-111"]}
{"id": "C145", "title": "The drawing tells the units apart", "statement": "In the drawing that the dot file describes, where a node is what has one text: from the node of a unit there are arrows to the group addresses of that unit, other than 255, and to no others; so that the groups of every unit of every network can be read off.", "quantifier": "every dump, every unit of every network, every group address", "why_tests_cant": "It is about all projects with any number of units and names; a test has to choose the names.", "anchors": ["cbus/toolkit/graph.py:45-67"]}
{"id": "C146", "title": "What dump_labels writes, graph can read and draw, whatever the indentation", "statement": "Whenever cbz_dump_labels ends without an error, for any project file and any --pretty, its output file holds only printable ASCII and line ends; graph reads it back as exactly the value that was dumped and draws it without an error. The indentation makes no difference to the drawing: two runs on one project with any two --pretty give the same graph. For a project written as the Toolkit writes it the drawing made from the file shows each network with its units and groups. A dump that fails leaves the file as it was or a file that graph refuses.", "quantifier": "For all project files, all indentations, all Unicode tables, and all parameters of the JSON reader.", "why_tests_cant": "The two programs are only joined by a file; a test can run the pair on a few projects, not on every name, every repeated address and every indentation.", "anchors": ["cbus/toolkit/dump_labels.py:30-122", "cbus/toolkit/graph.py:28-71"]}
{"id": "C147", "title": "Lights can be found, operated and watched in Home Assistant", "statement": "By the rules that Home Assistant documents for MQTT discovery and for JSON lights, the messages that cmqttd publishes on connecting make exactly one entity for the daemon and a dimmable light and a binary sensor for every group address, no two with the same identity, whatever the labels. Over any history in which lights are switched and dimmed from these entities and by other units on the network: nothing fails; the commands sent on the network are those asked for, for the right group and in that order; and each light is shown in exactly the states it was put in, one after the other, so that in the end it is shown as it was last put. Nothing that is done to one light is shown at another.", "quantifier": "For all labels, all sequences of service calls (any group, any brightness from 1 to 255 or none, any transition or none) mixed with any commands of other units in any spelling, all Unicode tables and all parameters of the JSON reader and writer that write the transitions exactly, starting in any state in which the daemon is connected on both sides with nothing half read.", "why_tests_cant": "Three programs and two wire formats take part; a test can play one conversation with a stand-in for Home Assistant, not every one, and not for every light that must stay unaffected.", "anchors": ["cbus/daemon/cmqttd.py:99-115", "cbus/daemon/cmqttd.py:123-275", "docs/cmqttd.rst:9-14", "docs/cmqttd.rst:290-345"]}
{"id": "C148", "title": "A set message that is delivered more than once does no harm", "statement": "MQTT delivers messages with QoS 1 at least once and may begin again with ones already delivered. However often that happens, the lights come to the same levels and the broker keeps the same messages on all topics as if every message had been delivered once; whatever is in the messages, and whatever the daemon did before.", "quantifier": "For all sequences of messages (any topics and payloads), all repetitions that the MQTT standard allows, all states of a connected daemon, all Unicode tables and all JSON readers.", "why_tests_cant": "Repetitions come from lost connections at arbitrary moments; a test can repeat one message, not every suffix of every sequence.", "anchors": ["cbus/daemon/cmqttd.py:123-171", "cbus/daemon/cmqttd.py:235-275"]}
{"id": "C149", "title": "After a start the broker shows what the lights are", "statement": "Claim: whenever the daemon is running and all is quiet, the broker shows the level of every light, also of those that were switched while the daemon was not running. It is false: the daemon never asks for the state of a group, so what the broker has kept from before stays. True: lights for which there was no command while the daemon was away, or has been one since, are shown as they are, over any number of stops and starts.", "quantifier": "For all histories of messages, commands of other units, confirmations, stops and starts at any moment, in which no two commands for one light cross while the daemon is running; all labels, Unicode tables and JSON readers.", "why_tests_cant": "What is shown depends on all that happened while the daemon was away and at which moment it was stopped; a test has one such history.", "anchors": ["cbus/daemon/cmqttd.py:123-128", "cbus/protocol/pciprotocol.py:81-92", "cbus/daemon/cmqttd.py:178-228"]}
{"id": "C150", "title": "On a serial line an unreadable line costs at most 512 characters of reports", "statement": "When a line that cannot be read is received through a serial port, the daemon stays connected, and but for those in the first 512 characters behind it the messages for all reports of the network are published, whatever the pieces of no more than 256 characters in which they arrive.", "quantifier": "every unreadable line, every sequence of reports, every chopping into pieces of at most 256 characters, every time and state", "why_tests_cant": "how a serial line cuts reports into pieces depends on timing; no test goes on after a line that raises", "anchors": ["cbus/protocol/buffered_protocol.py::BufferedProtocol.data_received", "cbus/protocol/cbus_protocol.py::CBusProtocol.handle_data", "cbus/daemon/cmqttd.py:424-469"]}
{"id": "C151", "title": "What a daemon is made to do is bounded by what it receives", "statement": "Whatever a connected daemon receives from the network interface, valid or not and in whatever pieces: each message it publishes is paid for by two of the received characters and each line it writes by four, no character counting twice; and what it writes is at most 37 characters for four received.", "quantifier": "every sequence of received characters, every chopping, every time and state of a connected daemon", "why_tests_cant": "a bound over all inputs, including malformed and endless ones, cannot be tested", "anchors": ["cbus/protocol/buffered_protocol.py::BufferedProtocol.data_received", "cbus/protocol/pciprotocol.py::PCIProtocol.handle_cbus_packet", "cbus/daemon/cmqttd.py::CBusHandler"]}
{"id": "C152", "title": "A report from which characters are lost is not taken for another", "statement": "When consecutive characters are lost from the line of a valid message of the network interface (as on a serial line, or when the receive buffer overflows), what is left of the line is never decoded as a message.", "quantifier": "every valid line, every run of lost characters, every continuation", "why_tests_cant": "the number of ways to lose characters is unbounded, and whether the remainder passes depends on the sum of what is lost", "anchors": ["cbus/common.py::validate_cbus_checksum", "cbus/protocol/packet.py::decode_packet"]}
{"id": "C153", "title": "A packet that was received can be sent on", "statement": "Every message that decode_packet returns can be written with encode_packet, and what is written is read as the same packet, so that a program can keep or pass on what it receives. Lines with lighting commands and nothing else are written character by character as they were received.", "quantifier": "every buffer and every message read from it, in both directions, both checksum and strict settings, everything that may follow", "why_tests_cant": "Tests compare a few packets that were built by hand; the claim is about every packet that any bytes can be read as.", "anchors": ["cbus/protocol/packet.py:43-257", "cbus/protocol/base_packet.py:53-70", "cbus/protocol/pm_packet.py:99-136", "cbus/protocol/pp_packet.py:83-174", "cbus/protocol/dm_packet.py:43-77"]}
{"id": "C154", "title": "What is dropped from a message is warned of", "statement": "When a point to multipoint message is decoded, there is no warning exactly if the data of the application are complete, known commands from the first byte to the last and each of them is reported. Every command that is skipped, every place where the rest of the data is given up and every status request that is cut off has exactly one warning, of the right kind and in order. A checksum or a confirmation code that is wrong and tolerated is warned of as well, and nothing else ever is.", "quantifier": "for all five applications and all data; for all buffers in both directions, with and without checksums, strict or not", "why_tests_cant": "The warnings depend on all of the data and on the position at which decoding stops; a unit test looks at single malformed messages, never at the claim that no part of any message disappears silently.", "anchors": ["cbus/protocol/application/lighting.py:62-105,148-168", "cbus/protocol/application/clock.py:52-95,130-177,218-233", "cbus/protocol/application/temperature.py:55-101", "cbus/protocol/application/enable.py:45-89", "cbus/protocol/application/status_request.py:49-86", "cbus/protocol/packet.py:158-198"]}
{"id": "C155", "title": "Documents are saved under the names that their addresses spell", "statement": "fetch_protocol_docs saves every document of the index page under the name that the last part of its path spells by RFC 3986, section 2.1: a percent sign with two hexadecimal digits, of either case, stands for the octet of that value, every other ASCII character for itself, and the octets are decoded together; a percent sign without two digits and characters that are not ASCII stay as they are.", "quantifier": "for all names, all pages whose links can be read, all directories and earlier contents, all servers that answer", "why_tests_cant": "Every mixture of escaped and plain characters, valid and malformed escapes must be decoded; tests could cover a few names only, and the repository has none for this tool.", "anchors": ["cbus/tools/fetch_protocol_docs.py:55-86,88-111"]}
{"id": "C156", "title": "Commands that are sent at once all reach a simulated PCI", "statement": "Whatever broadcast calls a client makes after connecting to a simulated PCI, the simulated PCI carries all of them out in order, whether what the client has written arrives in one piece or in many.", "quantifier": "every sequence of lighting and clock calls, every chopping, every state of the client and of the simulated PCI", "why_tests_cant": "how many commands are in one piece depends on how fast they are issued and on the operating system; the tests hand over one line at a time", "anchors": ["cbus/protocol/buffered_protocol.py:63-86", "cbus/protocol/pciserverprotocol.py:479-489", "cbus/protocol/pciprotocol.py:328-369,433-560"]}
{"id": "C157", "title": "A dump is laid out as the option asks", "statement": "dump_labels -p N with a positive N writes every item and every member on a line of its own, with N spaces before it for each array or object that it is in, and the closing brackets as far in as the lines with the opening ones; without the option (and with 0) it writes one line.", "quantifier": "every project file that can be dumped, every positive number of spaces", "why_tests_cant": "the layout depends on how deep and how long the lists of a project are; the repository has no test of this tool", "anchors": ["cbus/toolkit/dump_labels.py:39-59", "cbus/toolkit/dump_labels.py:113-117"]}
{"id": "C158", "title": "The text of a packet tells what was received", "statement": "The text of a packet, which cbus_decode_packet prints and which the log has for every packet that arrives, tells what the packet is: two packets that differ in their kind, application, sender or commands (for reports and answers: in the unit or the commands; for parameters: in the parameter or the value; for confirmations: in the code or the success; for invalid ones: in the bytes) never have the same text.", "quantifier": "all pairs of packets that decode_packet returns for any bytes and any options, and all addresses in memory of the objects", "why_tests_cant": "That two different values have different texts is a statement about all pairs of packets. It depends on where in the texts the numbers end, on the quotes and escapes of bytes, on zero seconds that are left out of a time, and on classes without a text of their own, which print their place in memory.", "anchors": ["cbus/protocol/pm_packet.py:55-61", "cbus/protocol/pp_packet.py:176-179", "cbus/protocol/dm_packet.py:79-82", "cbus/protocol/confirm_packet.py:51-53", "cbus/protocol/application/lighting.py:180-183", "cbus/protocol/application/clock.py:200-201", "cbus/tools/decode_packet.py:28-35", "cbus/protocol/cbus_protocol.py:76"]}
{"id": "C159", "title": "The log tells what was received", "statement": "A client and a simulated PCI log every packet that arrives and then one line that begins with 'recv: ' for each event handler that is called, in order. From these lines one can tell which events there were: which unit, group, duration, level, date, time, confirmation code. The line of the simulated PCI for a ramp has the brightness in it as a percentage.", "quantifier": "every packet that can be received, every state of the simulated PCI, whatever is random", "why_tests_cant": "the texts of different events must differ for all addresses, durations, levels and times, and the number and order of the lines must follow the handlers for packets of any length; the tests read no log", "anchors": ["cbus/protocol/cbus_protocol.py:75-77", "cbus/protocol/pciprotocol.py:99-311", "cbus/protocol/pciserverprotocol.py:92-321"]}
{"id": "C160", "title": "What the simulated PCI holds back", "statement": "There is a limit to the number of packets that the simulated PCI keeps for later, whatever a client sends.", "quantifier": "every history of connection, pieces of data and calls of its methods, with or without exceptions", "why_tests_cant": "The queue depends on the whole history; a test sends a handful of clock updates, which all have confirmation codes.", "anchors": ["cbus/protocol/pciserverprotocol.py:288-310", "cbus/protocol/pciserverprotocol.py:352-373"]}
{"id": "C161", "title": "The log tells all bytes that pass", "statement": "With the log at debug level one can tell from it, byte for byte and piece for piece, all that was received and all that was sent, by a client and by a simulated PCI; and logging it changes nothing.", "quantifier": "every history of pieces of data, every state of the connection, every packet that is sent", "why_tests_cant": "A test looks at a line; whether two different histories ever leave the same lines, and whether something passes without a line, are questions about all histories.", "anchors": ["cbus/protocol/cbus_protocol.py:54-79", "cbus/protocol/buffered_protocol.py:63-112", "cbus/protocol/pciprotocol.py:328-369", "cbus/protocol/pciserverprotocol.py:355-373"]}
{"id": "C162", "title": "Two neighbouring characters that are changed are always noticed", "statement": "When two neighbouring characters of the digits of a valid message, or one of them, are changed into others (as by noise that is shorter than one character, or when they are exchanged) and these are no end of a line, or when a character is added to a report, the line is never decoded as a message; for reports of the PCI and for commands to it.", "quantifier": "every valid line, every position, all other characters, every continuation", "why_tests_cant": "the checksum is a sum, for which a test of some exchanges says nothing about the others (those of two bytes are not noticed)", "anchors": ["cbus/common.py::validate_cbus_checksum", "cbus/protocol/packet.py::decode_packet"]}
{"id": "C163", "title": "Lights carry the names of the last start", "statement": "After the daemon has connected to the broker, a client that asks for the configuration of a group, at once or any time later, is told exactly one light and one binary sensor, named as in the project file that the daemon was last started with (or the generic name), whatever the broker had kept from earlier starts with other project files; configurations of other devices are left alone.", "quantifier": "every content of the broker before, all labels, every history afterwards of publications of others, connections, losses, messages and happenings on the C-Bus side, as long as nobody else leaves configurations there and no daemon with other labels connects", "why_tests_cant": "what is seen depends on what earlier runs have left at the broker", "anchors": ["cbus/daemon/cmqttd.py::MqttClient.publish_all_lights", "cbus/daemon/cmqttd.py::MqttClient.on_connect"]}
{"id": "C164", "title": "The time on the network does not run backwards", "statement": "The times that the daemon tells the network, by its time signals and in answer to requests, are readings of the clock of the computer, in the order in which they are made, each told at most once and in the same step in which it is read, date and time in one message from one reading. So as long as the local time of the computer does not go back, no unit is told an earlier time after a later one.", "quantifier": "every history of connections, losses, data in arbitrary pieces (while connected), time signals, MQTT connections and messages, every clock whose readings are dates and times, every state of the client", "why_tests_cant": "it is about all orders in which requests, signals and other messages can fall together, and about what is not sent: a reading that is kept and sent later", "anchors": ["cbus/protocol/pciprotocol.py::PCIProtocol.clock_datetime", "cbus/protocol/pciprotocol.py::PCIProtocol.timesync", "cbus/protocol/pciprotocol.py::PCIProtocol.on_clock_request", "cbus/protocol/application/clock.py::clock_update_sal"]}
{"id": "C165", "title": "A report is published when its last character arrives", "statement": "While reports from the network arrive over TCP, cut into pieces in any way that leaves room for an incomplete report in the buffer, the messages that have been sent to the broker are at any time exactly those of the reports whose last character has arrived: none is held back until something else is received, and none is sent before it is complete.", "quantifier": "all reports, all choppings into pieces with room for an incomplete line (see C110 for longer ones), every moment, every state of a connected daemon", "why_tests_cant": "it is about every moment within every chopping of every stream; a test sees some", "anchors": ["cbus/protocol/buffered_protocol.py::BufferedProtocol._process_buffer", "cbus/protocol/packet.py::decode_packet", "cbus/daemon/cmqttd.py::CBusHandler.on_lighting_group_on"]}
{"id": "C166", "title": "Lights do not influence each other", "statement": "What the daemon does for one light does not depend on what happens to others. If messages for other lights (or on topics that are for no light) are taken out of any history of the daemon, wherever they stand and whatever they say, then the daemon still does the same for the light: the same commands in the same order, the same messages about it with the same content, and everything else it does (answers to clock requests, discovery messages, subscriptions, log) except the commands and messages about other lights; only the confirmation codes on the commands and the times it tells may differ. So messages for different lights may come in any order. In the other direction, what it publishes about a light depends only on what the reports on the network say of that light and on the unit each came from: two streams of reports that say the same of it, whatever else they say of other lights and however they are packed and cut into short pieces, give the same messages about it.", "quantifier": "for every group address, every history of the daemon and every history that comes from it by leaving out messages not for that address, every reading of the clock, every state with a valid next code; for every two streams of well formed reports in short pieces", "why_tests_cant": "A test has a few lights and a few orders of messages; that no state leaks from one light to another in any history is a statement about pairs of histories.", "anchors": ["cbus/daemon/cmqttd.py::MqttClient.on_message", "cbus/daemon/cmqttd.py::CBusHandler.on_lighting_group_on", "cbus/protocol/pciprotocol.py::PCIProtocol._send", "cbus/protocol/pciprotocol.py::PCIProtocol.handle_cbus_packet"]}
{"id": "C167", "title": "What is shown of a light has been announced", "statement": "Over every history of cmqttd from its start, whatever it publishes that is not a configuration is published on a topic that a configuration published before (and left at the broker) has named as the topic of a state; and no configuration is published that names a topic for commands before the daemon has subscribed to that topic. So a client that knows of a light through discovery never finds a state without a description, nor a light that does not listen. Without a connection to the broker nothing is published at all.", "quantifier": "every history of connections made and lost on both sides, bytes received, ticks of the clock and messages, in which messages come only after a connection to the broker; every position in all that is written and published; all labels", "why_tests_cant": "It is about the order of everything published over histories of any length: a test looks at one connection and at the messages of one event.", "anchors": ["cbus/daemon/cmqttd.py::MqttClient.on_connect", "cbus/daemon/cmqttd.py::MqttClient.publish_all_lights", "cbus/daemon/cmqttd.py::MqttClient.on_message", "cbus/daemon/cmqttd.py::CBusHandler.on_lighting_group_on", "cbus/daemon/cmqttd.py::CBusHandler.on_lighting_group_off", "cbus/daemon/cmqttd.py::CBusHandler.on_lighting_group_ramp"]}
{"id": "C168", "title": "The password file changes nothing but the password", "statement": "What the file of --broker-auth contains, and whether one is given, has no effect on the start of cmqttd but for the user name and the password that the MQTT client is given: the same connections with the same TLS settings are made in the same order, the start fails with the same exception or the daemon runs with the same options and labels. With a file that cannot be decoded, nothing of it is used and no connection to the broker is made.", "quantifier": "all pairs of contents of the file (or none), all worlds (devices, hosts, files, brokers, certificates), all other options and project files, every encoding of the locale", "why_tests_cant": "A statement about pairs of executions: tests compare single runs and cannot show that a secret has no influence elsewhere.", "anchors": ["cbus/daemon/cmqttd.py::_main", "cbus/daemon/cmqttd.py::read_auth"]}
{"id": "C169", "title": "A project file changes names only", "statement": "The labels that cmqttd takes from a project file have no effect but on names: two histories of the daemon that differ only in its labels lead, step for step, to the same states, the same exceptions, the same commands and the same messages in the same order; only the names in the configurations of lights and their binary sensors differ, and only for the lights that the two sets of labels name differently. To the start of the daemon a project file that can be read makes no other difference either. So a project file can be added, changed or left out without other effects on an installation.", "quantifier": "every pair of histories of connections, losses, data, ticks, MQTT connections and messages that differ only in labels, every state of the client, every start in every world", "why_tests_cant": "A statement about pairs of executions of any length and all labels; tests look at single runs with few labels.", "anchors": ["cbus/daemon/cmqttd.py::MqttClient.publish_all_lights", "cbus/daemon/cmqttd.py::MqttClient.on_connect", "cbus/daemon/cmqttd.py::CBusHandler.__init__", "cbus/daemon/cmqttd.py::_main"]}
{"id": "C170", "title": "Keeping time does not disturb the lights", "statement": "The settings for the time on the network (--timesync, --no-clock), the time signals and the clock of the computer have no effect on anything else: two daemons in the same state with other settings and other clocks, whose histories are the same but for time signals at any moments, send the same other commands and the same messages in the same order; only confirmation codes may differ. Every command for a light and every message counts as something else.", "quantifier": "every pair of histories that differ only in time signals, all settings, all clocks whose readings are dates and times, every state of the client", "why_tests_cant": "A statement about pairs of executions of any length; tests run one of them with one setting.", "anchors": ["cbus/protocol/pciprotocol.py::PCIProtocol.timesync", "cbus/protocol/pciprotocol.py::PCIProtocol.clock_datetime", "cbus/protocol/pciprotocol.py::PCIProtocol.connection_made", "cbus/daemon/cmqttd.py::CBusHandler.on_clock_request"]}
{"id": "C171", "title": "A damaged report costs only itself", "statement": "If in a stream of reports from the PCI, which arrives in short pieces, one character of any of the reports (not the end of its line) is changed into another one, and if there are other lines among them (with characters that are no digits, or with a wrong checksum), then the daemon publishes exactly the messages of the undamaged reports, in order, and nothing stays in its buffer.", "quantifier": "for all streams of lighting and other reports, all subsets of damaged ones, all positions and values of the changed characters, all ways of chopping the stream", "why_tests_cant": "The number of places, values and neighbours of a changed character times the ways of chopping is endless; a test tries one bad line, and the harmful values are two out of 255 at one position.", "anchors": ["cbus/protocol/packet.py::decode_packet", "cbus/protocol/buffered_protocol.py::BufferedProtocol.data_received", "cbus/protocol/cbus_protocol.py::CBusProtocol.handle_data", "cbus/daemon/cmqttd.py::CBusHandler"]}
{"id": "C172", "title": "The next report of a light puts right what damage left wrong", "statement": "If reports from the network are damaged on the way (one character of a line is changed, not its end, nor its first character to `+` or `!`, for which see C171), or lost, or if there is noise between them, then of a light that no damaged or lost report is about the same is published as without damage; and once an undamaged report about a light has come, and none about it has been damaged or lost since, the broker keeps on the topics of the light and of its binary sensor what it would keep without damage.", "quantifier": "for all streams of reports, all subsets of damaged or lost ones, all positions and values of the changed characters, all ways of chopping either stream, all lights", "why_tests_cant": "It compares two executions of any length, for every kind and place of damage; a test runs one execution with one bad line.", "anchors": ["cbus/protocol/packet.py::decode_packet", "cbus/protocol/buffered_protocol.py::BufferedProtocol.data_received", "cbus/protocol/pciprotocol.py::PCIProtocol.handle_cbus_packet", "cbus/daemon/cmqttd.py::CBusHandler", "cbus/daemon/cmqttd.py::MqttClient.lighting_group_on"]}
{"id": "C173", "title": "A serial line and a socket make a difference only after an exception", "statement": "Whatever the daemon receives, and in whatever pieces: if the protocol raises over none of the pieces then all that the daemon does is the same over a serial line and over TCP. Otherwise it is the same up to and including the first piece over which it raises; then the TCP connection is lost and nothing more is done, and over the serial line the pieces behind it are handled as if they came next. So all that is done over TCP is done over a serial line, in the same order.", "quantifier": "for all states of a connected client, all pieces, all clocks", "why_tests_cant": "It compares two executions of any length with two transports; a test has one of them, with a few pieces.", "anchors": ["cbus/protocol/buffered_protocol.py::BufferedProtocol.data_received", "cbus/protocol/pciprotocol.py::PCIProtocol.connection_lost", "cbus/daemon/cmqttd.py::_main"]}
{"id": "C174", "title": "A report that comes more than once does no harm", "statement": "If reports from the network come again, one by one or some in a row (as in 1, 2, 3, 2, 3, 4), then in the end the broker keeps on all topics what it would keep if each had come once. And of a report that is sent twice either copy may be damaged or lost (as in C172): the broker keeps what it would keep if it had been sent once and had come through.", "quantifier": "for all streams of reports, all repetitions, all ways of chopping either stream, all kinds and places of damage to a copy", "why_tests_cant": "It compares two executions of any length; repetitions and damage combine in endlessly many ways.", "anchors": ["cbus/protocol/packet.py::decode_packet", "cbus/protocol/pciprotocol.py::PCIProtocol.handle_cbus_packet", "cbus/daemon/cmqttd.py::CBusHandler", "cbus/daemon/cmqttd.py::MqttClient.lighting_group_on"]}
{"id": "C175", "title": "A damaged command costs only itself", "statement": "To a simulated PCI with checksums on, a command of which one character before the CR is changed on the way is as if it had not come (but for its echo in basic mode), and whatever follows it is handled as usual.", "quantifier": "every command with a checksum and a confirmation code, every character of it and what it may become, every state of a connected simulated PCI with checksums on, every text that follows", "why_tests_cant": "There are as many damaged commands as commands, places and characters, and what matters is also how everything behind them is treated; a test damages one command in one place.", "anchors": ["cbus/protocol/packet.py::decode_packet", "cbus/protocol/buffered_protocol.py::BufferedProtocol.data_received", "cbus/protocol/cbus_protocol.py::CBusProtocol.handle_data", "cbus/protocol/pciserverprotocol.py::PCIServerProtocol.handle_cbus_packet"]}
{"id": "C176", "title": "Commands that arrive are carried out whatever becomes of the others", "statement": "Of the commands that a client writes to a simulated PCI with checksums on, any may be lost on the way or damaged in one digit; all the others are carried out, in order, each is confirmed with its own code and no other is. Of up to twenty commands in a row the confirmations therefore tell exactly which were carried out.", "quantifier": "every sequence of lighting and clock calls, every choice of commands that are lost or damaged and of where and how (but for a CR or `?`), every division of what arrives into pieces of up to 209 characters, every state of client and simulated PCI with checksums on", "why_tests_cant": "A test loses or damages a few chosen commands; that nothing of the damaged ones sticks to the others, in whatever pieces it all arrives, is a statement about all sequences, choices and divisions.", "anchors": ["cbus/protocol/pciprotocol.py::PCIProtocol._send", "cbus/protocol/packet.py::decode_packet", "cbus/protocol/buffered_protocol.py::BufferedProtocol.data_received", "cbus/protocol/pciserverprotocol.py::PCIServerProtocol.handle_cbus_packet"]}
{"id": "C177", "title": "The client is told of exactly those commands that were carried out", "statement": "A client calls for lights at a simulated PCI in smart mode with checksums on, and some of the commands are damaged in a digit or lost on the way. What comes back are the confirmations of the others and nothing else, and the client is told of these in order as successes. Of up to twenty calls it is told of one exactly if that was carried out.", "quantifier": "every sequence of calls for lights, every choice of commands that are lost or damaged and of where and how (but for a CR or `?`), every division of what goes there into pieces of up to 209 and of what comes back into pieces of up to 254 characters, every state of the client with the connection up", "why_tests_cant": "It joins two programs across a line that loses some of what passes; tests try a few losses and one division into pieces.", "anchors": ["cbus/protocol/pciprotocol.py::PCIProtocol._send", "cbus/protocol/pciprotocol.py::PCIProtocol.handle_cbus_packet", "cbus/protocol/pciserverprotocol.py::PCIServerProtocol.handle_cbus_packet", "cbus/protocol/pciserverprotocol.py::PCIServerProtocol.send_confirmation"]}
{"id": "C178", "title": "A set-up that is confirmed is in force", "statement": "The lines with which a client sets up the interface may be damaged in one character each or lost on the way to the simulated PCI, so long as one reset arrives. If the last command is confirmed, the interface is in smart mode with checksums on, as the client takes it to be; otherwise it is as after a reset.", "quantifier": "every state of a connected simulated PCI, all confirmation codes, every choice of lines that are lost or damaged and of where and how (but for a CR or `?`), every division of what arrives into pieces of up to 209 characters", "why_tests_cant": "The set-up is tested as a whole; what is left of it when parts do not get through depends on the order and on the options that the parts themselves change.", "anchors": ["cbus/protocol/pciprotocol.py::PCIProtocol.pci_reset", "cbus/protocol/pciserverprotocol.py::PCIServerProtocol.handle_cbus_packet", "cbus/protocol/pciserverprotocol.py::PCIServerProtocol.on_reset", "cbus/protocol/packet.py::decode_packet"]}
{"id": "C179", "title": "A damaged confirmation costs only itself", "statement": "Of the confirmations and reports that a PCI sends, any confirmations may arrive with other characters; the client is still told of all other confirmations and of all reports, in order.", "quantifier": "every sequence of reports and confirmations, every choice of damaged confirmations and of their characters, every division of what arrives into pieces that leave room for a line, every state of the client with the connection up", "why_tests_cant": "Confirmations have no end of line and no checksum, so that what one damaged character does depends on all that follows; tests try one sequence.", "anchors": ["cbus/protocol/packet.py::decode_packet", "cbus/protocol/pciprotocol.py::PCIProtocol.handle_cbus_packet", "cbus/protocol/buffered_protocol.py::BufferedProtocol.data_received"]}
{"id": "C180", "title": "Confirmations and notifications change nothing that cmqttd does", "statement": "Whatever confirmations, refusals and notifications the PCI sends among its reports, cmqttd writes and publishes the same as if it had sent the reports alone, and is left in the same state: it waits for no confirmation and repeats no command.", "quantifier": "every sequence of reports, confirmations of both kinds and both notifications, every division of what arrives into pieces that leave room for a line, every state of the daemon with the connection up", "why_tests_cant": "It compares two executions, over all sequences and divisions; a test compares a few.", "anchors": ["cbus/protocol/pciprotocol.py::PCIProtocol.handle_cbus_packet", "cbus/protocol/pciprotocol.py::PCIProtocol.on_confirmation", "cbus/protocol/pciprotocol.py::PCIProtocol.on_pci_cannot_accept_data", "cbus/daemon/cmqttd.py::CBusHandler"]}
