#!/usr/bin/env python3
"""Writes /verif/properties.jsonl.  One tuple per property:
(title, statement, quantifier, why_tests_cant, [anchors])"""
import json, os
P = []
def p(title, statement, quantifier, why, *anchors):
    P.append(dict(id=f"C{len(P)+1:02d}", title=title, statement=statement,
                  quantifier=quantifier, why_tests_cant=why, anchors=list(anchors)))

CM="cbus/common.py"; PK="cbus/protocol/packet.py"; BP="cbus/protocol/base_packet.py"
PM="cbus/protocol/pm_packet.py"; PP="cbus/protocol/pp_packet.py"; DM="cbus/protocol/dm_packet.py"
BUF="cbus/protocol/buffered_protocol.py"; CP="cbus/protocol/cbus_protocol.py"
PCI="cbus/protocol/pciprotocol.py"; SRV="cbus/protocol/pciserverprotocol.py"
MQ="cbus/daemon/cmqttd.py"; CBZ="cbus/toolkit/cbz.py"; DL="cbus/toolkit/dump_labels.py"; GR="cbus/toolkit/graph.py"
L="cbus/protocol/application/lighting.py"; CK="cbus/protocol/application/clock.py"
T="cbus/protocol/application/temperature.py"; E="cbus/protocol/application/enable.py"
SR="cbus/protocol/application/status_request.py"; AP="cbus/protocol/application/__init__.py"
RP="cbus/protocol/cal/report.py"; EX="cbus/protocol/cal/extended.py"; RE="cbus/protocol/cal/reply.py"
ID="cbus/protocol/cal/identify.py"; RC="cbus/protocol/cal/recall.py"; ST="cbus/protocol/cal/standard.py"

# ---- codecs ---------------------------------------------------------------
p("Appended checksums always validate",
  "For every byte string m, validate_cbus_checksum(add_cbus_checksum(m)) is True, add_cbus_checksum leaves m as a prefix and appends exactly one byte, and the bytes of the result sum to 0 modulo 256.",
  "every byte string, of any length", "a test samples a handful of messages; the claim is about all of them",
  f"{CM}::cbus_checksum", f"{CM}::add_cbus_checksum", f"{CM}::validate_cbus_checksum", f"{CM}::get_real_cbus_checksum")
p("Any single corrupted byte is caught by the checksum",
  "If a message carries a valid checksum and exactly one of its bytes (payload or checksum byte) is replaced by a different value, validate_cbus_checksum returns False.",
  "every valid message, every position, every replacement value", "the product of messages, positions and values is unbounded",
  f"{CM}::validate_cbus_checksum", f"{CM}::cbus_checksum")
p("Base16 framing is lossless and clean",
  "encode_packet of an ordinary packet emits an even number of characters, all in 0-9A-F, so it can never contain a prompt, confirmation, cancel or end-of-line character; base16-decoding it gives back exactly encode().",
  "every byte string a packet can encode to", "all byte values in all positions and lengths",
  f"{BP}::BasePacket.encode_packet", f"{PK}::decode_packet")
p("Group addresses are accepted exactly in 0..255",
  "check_ga (and hence every lighting SAL constructor) accepts an integer group address iff it is between 0 and 255 inclusive and raises ValueError otherwise.",
  "every integer, positive or negative", "unbounded integers",
  f"{CM}::validate_ga", f"{CM}::check_ga", f"{L}::LightingSAL.__init__")
p("Ramp durations are rounded up to the nearest supported rate",
  "duration_to_ramp_rate(d) returns a code whose duration is the least supported duration that is >= d; if d exceeds every supported duration (more than 1020 s) it returns the slowest rate, and never raises.",
  "every duration, whole or not, as well as NaN (taken for more than 1020 s) and the infinities", "unbounded numbers; the boundary between each of 16 rates matters",
  f"{CM}::duration_to_ramp_rate", f"{CM}::_LIGHT_RAMP_RATES")
p("Ramp rate codes and durations are mutually inverse and monotone",
  "ramp_rate_to_duration(duration_to_ramp_rate(d)) = d for every supported duration, duration_to_ramp_rate(ramp_rate_to_duration(c)) = c for every ramp code c, a longer requested duration never yields a shorter ramp, and ramp_rate_to_duration raises KeyError exactly for codes that are not ramp codes.",
  "every integer duration, every integer code", "unbounded integers and all pairs",
  f"{CM}::duration_to_ramp_rate", f"{CM}::ramp_rate_to_duration")
p("Manchester level coding round-trips",
  "manchester_decode(manchester_encode(v)) = v for every level 0..255, is v mod 256 for every other integer, and None (missing) encodes to two zero bytes which decode to None.",
  "every integer level and None", "unbounded integers",
  f"{RP}::manchester_encode", f"{RP}::manchester_decode")
p("Single-bit line noise never yields a wrong level",
  "If any one bit of a manchester-coded level is flipped, manchester_decode reports None rather than another level; more generally a level is reported only when all four nibbles are legal code nibbles.",
  "every level, every bit position; every two-byte input", "all levels by all bit positions, all 65536 inputs",
  f"{RP}::manchester_decode", f"{RP}::LevelStatusReport")
p("manchester_encode writes only its two bytes",
  "manchester_encode(v, buf, off) changes at most the bytes at off and off+1, keeps the length, does nothing for None, and raises IndexError leaving the buffer untouched when fewer than two bytes remain at off.",
  "every buffer, offset and value", "unbounded buffers and offsets",
  f"{RP}::manchester_encode")
p("Level status reports round-trip",
  "LevelStatusReport.decode(LevelStatusReport(states).encode()) reproduces the list of levels (each None or 0..255) for every length and order, and decode raises ValueError exactly for odd-length input.",
  "every list of optional levels; every byte string", "lists of unbounded length",
  f"{RP}::LevelStatusReport")
p("Binary status reports round-trip in both directions",
  "BinaryStatusReport.encode(decode(b)) = b for every byte string b, and decode(encode(states)) is states padded with MISSING up to a multiple of four (so unpadded lists of a multiple of four are reproduced exactly).",
  "every byte string; every list of group states", "lists of unbounded length",
  f"{RP}::BinaryStatusReport")
p("Extended status CALs round-trip when they fit",
  "An ExtendedCAL whose report encodes to at most 28 bytes is decoded back to the same externally-initiated flag, child application, block start and report, consuming exactly its own bytes, whatever follows it in the packet.",
  "every extended CAL with a report of up to 28 bytes, every trailing data", "all reports, both types, followed by arbitrary bytes",
  f"{EX}::ExtendedCAL", f"{PP}::PointToPointPacket.decode_cal")
p("Over-long extended status reports are never silently mis-framed",
  "Encoding an ExtendedCAL whose report is longer than its 5-bit length field can express raises an error instead of producing a CAL that a receiver would frame differently.",
  "every report longer than 28 bytes", "needs every length",
  f"{EX}::ExtendedCAL.encode")
p("IDENTIFY, RECALL and REPLY CALs round-trip",
  "Each IdentifyCAL with a defined attribute, RecallCAL with byte-sized fields and ReplyCAL with a byte-sized parameter and at most 30 data bytes is decoded back to itself, consuming exactly its own bytes, whatever follows; a ReplyCAL with longer data is truncated to its first 30 bytes and still framed correctly.",
  "every such CAL, every trailing data", "all values by all continuations",
  f"{ID}::IdentifyCAL", f"{RC}::RecallCAL", f"{RE}::ReplyCAL", f"{PP}::PointToPointPacket.decode_cal")
p("A sequence of CALs decodes to exactly that sequence",
  "A point-to-point packet carrying any sequence of well-formed CALs is decoded to exactly the same CALs in the same order, none lost, merged or invented.",
  "every finite sequence of well-formed CALs of every kind", "unbounded sequences",
  f"{PP}::PointToPointPacket.decode_packet", f"{PP}::PointToPointPacket.encode")
p("A sequence of lighting commands decodes to exactly that sequence",
  "Lighting on/off/terminate/ramp SALs with group addresses 0..255, levels 0..255 and any durations, encoded back to back, are decoded by the lighting application to exactly the same commands in order, ramp durations being replaced by the nearest supported duration not below them.",
  "every finite sequence of lighting SALs", "unbounded sequences with data-dependent SAL lengths",
  f"{L}::LightingSAL.decode_sals", f"{L}::LightingRampSAL", f"{L}::LightingOnSAL", f"{L}::LightingOffSAL", f"{L}::LightingTerminateRampSAL")
p("Malformed lighting data never disturbs the commands before it",
  "Whatever bytes follow a well-formed sequence of lighting commands, the decoder still returns those commands first and unchanged; lighting decoding never raises.",
  "every well-formed prefix followed by every byte string", "arbitrary garbage of any length",
  f"{L}::LightingSAL.decode_sals")
p("Clock updates round-trip for every date and time",
  "Every valid date (years 1..9999) and every time of day sent as clock updates is decoded to the same date and to the same hour, minute and second; requests decode to requests; any sequence of clock SALs decodes to that sequence. clock_update_sal makes one message of a date or a time, two of a datetime, and raises TypeError on anything else.",
  "every sequence of dates, times and requests", "3.6 million dates, unbounded sequences",
  f"{CK}::ClockUpdateSAL", f"{CK}::ClockRequestSAL", f"{CK}::ClockSAL.decode_sals", f"{CK}::clock_update_sal")
p("The transmitted day of week is the calendar day of week",
  "The weekday byte sent with a date is 0..6, is 0 (Monday) on 1 January 0001 and advances by exactly one modulo seven from each calendar day to the next, across month ends, leap days and year ends.",
  "every valid date", "every date in 9999 years including every leap rule",
  f"{CK}::ClockUpdateSAL.encode")
p("An unknown clock variable does not swallow its neighbours",
  "A clock update for an unknown variable is skipped as one unit: the clock SALs after it are decoded as if it were absent.",
  "every unknown variable, every length, every following SAL sequence", "unbounded continuations",
  f"{CK}::ClockUpdateSAL.decode")
p("Temperatures are transmitted to within a quarter degree",
  "A temperature in 0.0..63.75 is transmitted as the largest multiple of 0.25 not above it, so multiples of 0.25 are exact and others lose less than 0.25; temperatures outside the range (including NaN and infinities) and group addresses outside 0..255 are rejected with ValueError.",
  "every finite temperature value, NaN, infinities; every group address", "dense numeric domain",
  f"{T}::TemperatureBroadcastSAL", f"{T}::TemperatureSAL.decode_sals")
p("Enable-control variables round-trip",
  "Any sequence of EnableSetNetworkVariableSALs is decoded to the same sequence with variable and value reduced modulo 256.",
  "every finite sequence, every integer field", "unbounded sequences",
  f"{E}::EnableSetNetworkVariableSAL", f"{E}::EnableSAL.decode_sals")
p("Status requests round-trip",
  "Any sequence of StatusRequestSALs is decoded to the same sequence, with the child application reduced modulo 256 and the group address rounded down to a multiple of 32 within a byte.",
  "every finite sequence, every integer field", "unbounded sequences mixing two encodings",
  f"{SR}::StatusRequestSAL")
# ---- packets --------------------------------------------------------------
p("A packet never mixes applications",
  "After any sequence of append_sal and clear_sal calls (successful or raising), every SAL held by a PointToMultipointPacket belongs to the packet's application; an append of a SAL for another application raises ValueError and leaves the packet unchanged, and any SAL may be appended after clear_sal.",
  "every history of append_sal / clear_sal calls", "unbounded histories",
  f"{PM}::PointToMultipointPacket.append_sal", f"{PM}::PointToMultipointPacket.clear_sal")
p("Commands to the PCI survive encode / decode",
  "A point-to-multipoint packet of SALs, sent as backslash + encode_packet() + confirmation code + CR, is decoded by decode_packet(from_pci=False) into a packet with the same application, SALs (modulo the documented quantisations), priority and confirmation code, consuming exactly the line, with or without checksum.",
  "every SAL sequence of every application, every confirmation code, every priority, every following buffer content", "unbounded packets and continuations",
  f"{PM}::PointToMultipointPacket", f"{PK}::decode_packet")
p("Events from the PCI survive encode / decode",
  "A point-to-multipoint packet with source address 1..255, sent as encode_packet() + CR LF, is decoded by decode_packet(from_pci=True) into a packet with the same application, SALs, priority and source address, consuming exactly the line.",
  "every SAL sequence, source address, priority and following buffer content", "unbounded packets and continuations",
  f"{PM}::PointToMultipointPacket", f"{PK}::decode_packet")
p("The source address of an event is reported faithfully",
  "For every event received from the PCI, the decoded packet's source_address is the address byte on the wire.",
  "every source address including 0", "includes the corner value that code treats as false",
  f"{PK}::decode_packet")
p("Point-to-point packets survive encode / decode",
  "An unbridged PointToPointPacket (unit address 0..255, any sequence of well-formed CALs) is decoded back to the same unit address, CALs, priority, source address / confirmation, consuming exactly the line.",
  "every such packet", "unbounded CAL sequences",
  f"{PP}::PointToPointPacket", f"{PK}::decode_packet")
p("Bridged point-to-point packets are decoded with their route",
  "A point-to-point packet routed through a bridge with 0..5 further hops is decoded with exactly those hops and the final unit address, and every malformed route code is rejected as an InvalidPacket.",
  "every bridge address, hop list and CAL sequence; every route code", "six route lengths by all addresses by all payloads",
  f"{PP}::PointToPointPacket.decode_packet", f"{CM}::BRIDGE_LENGTHS")
p("Device management packets survive encode / decode",
  "A DeviceManagementPacket is decoded back with parameter and value reduced modulo 256 and the same priority and confirmation, from either direction, consuming exactly the line.",
  "every parameter, value, priority, checksum setting, confirmation code", "unbounded integer fields",
  f"{DM}::DeviceManagementPacket", f"{PK}::decode_packet")
p("Every lighting application address is decoded",
  "A packet for any lighting application address 0x30..0x5F carrying lighting commands is decoded into those commands.",
  "all 48 lighting application addresses, every command sequence", "tests only use application 0x38",
  f"{L}::_SUPPORTED_APPLICATIONS", f"{PM}::PointToMultipointPacket.decode_packet", f"{L}::LightingSAL.application")
p("Corrupted frames are never acted on",
  "With checksums required and strict mode on, a complete line of base16 data whose checksum is wrong is reported as an InvalidPacket and never as any other packet, for both directions (direct commands, the lines starting with '@', carry no checksum by protocol and are not meant); in particular changing any single byte of the data of a valid frame never produces a packet.",
  "every line content", "all possible frames",
  f"{PK}::decode_packet", f"{CM}::validate_cbus_checksum")
p("decode_packet never consumes more than it was given",
  "decode_packet returns a position between 0 and the length of its input.",
  "every buffer, every flag combination", "arbitrary byte strings",
  f"{PK}::decode_packet")
p("decode_packet waits for complete messages and always makes progress",
  "If the buffer holds no complete message decode_packet returns (None, 0); whenever it returns a packet the position is positive; and if the buffer contains an end-of-line marker it never returns position 0.",
  "every buffer, every flag combination", "arbitrary byte strings",
  f"{PK}::decode_packet")
p("Decoding the first message does not depend on what follows it",
  "If decode_packet finds a message (or raises) on some buffer, it gives the same result on that buffer followed by any further bytes.",
  "every buffer, every continuation, every flag combination", "all continuations",
  f"{PK}::decode_packet")
p("No received bytes make the decoder raise",
  "decode_packet returns (reporting InvalidPacket for malformed input) and never raises, whatever bytes it is given.",
  "every byte string, every flag combination", "arbitrary byte strings",
  f"{PK}::decode_packet")
p("Confirmations are decoded and encoded faithfully",
  "A ConfirmationPacket for a valid code encodes to the code followed by '.' or '#', and decode_packet(from_pci=True) on that encoding followed by anything returns the same code and success flag at position 2; construction with an invalid code raises ValueError.",
  "every code, both outcomes, every continuation", "all continuations",
  "cbus/protocol/confirm_packet.py::ConfirmationPacket", f"{PK}::decode_packet")
p("Cancel and null inputs are discarded exactly",
  "In client-to-PCI direction, everything up to and including a '?' that precedes the first CR is discarded and nothing else; a leading 'null' is discarded as exactly four bytes; '~' is a reset of exactly one byte; '|' CR and '||' CR select smart mode.",
  "every buffer content around the special characters", "arbitrary surrounding bytes",
  f"{PK}::decode_packet")
# ---- receive buffer -------------------------------------------------------
p("The receive buffer is bounded",
  "After any history of data_received calls, whatever the data and whatever the handler does, the buffer holds at most 256 bytes; a chunk that would overflow it drops the buffer and raises ValueError, and a chunk over the limit raises ValueError leaving the buffer alone.",
  "every sequence of received chunks", "unbounded histories",
  f"{BUF}::BufferedProtocol.data_received", f"{CP}::CBusProtocol.__init__", f"{CM}::MAX_BUFFER_SIZE")
p("Client: how the stream is chopped does not matter",
  "For a PCIProtocol, delivering a byte stream in one data_received call or split arbitrarily over several produces the same sequence of events and writes and the same final state, as long as the size limit is not hit.",
  "every byte stream and every way of splitting it", "exponentially many splits of unbounded streams",
  f"{BUF}::BufferedProtocol._process_buffer", f"{CP}::CBusProtocol.handle_data", f"{PCI}::PCIProtocol.handle_cbus_packet")
p("Server: how the stream is chopped does not matter",
  "For a PCIServerProtocol, delivering a byte stream in one data_received call or split arbitrarily over several produces the same sequence of events and writes and the same final state, as long as the size limit is not hit.",
  "every byte stream and every way of splitting it", "exponentially many splits of unbounded streams",
  f"{BUF}::BufferedProtocol._process_buffer", f"{CP}::CBusProtocol.handle_data", f"{SRV}::PCIServerProtocol.handle_cbus_packet", f"{PK}::decode_packet")
p("A malformed frame does not block the frames behind it",
  "After a malformed line is received, the following well-formed lines are still delivered.",
  "every malformed line, every following traffic", "all malformed lines by all continuations",
  f"{BUF}::BufferedProtocol._process_buffer", f"{PK}::decode_packet")
# ---- client ---------------------------------------------------------------
p("Confirmation codes do not repeat within twenty commands",
  "Over any history of PCIProtocol calls, the codes attached to confirmed commands cycle through the 20 legal codes in order, so any 20 consecutive confirmed commands carry 20 different codes; the code returned to the caller is the one written, and calls that fail consume no code.",
  "every history of API calls, including failing ones, from any reachable state", "unbounded histories",
  f"{PCI}::PCIProtocol._get_confirmation_code", f"{PCI}::PCIProtocol._send", f"{CM}::CONFIRMATION_CODES")
p("Each lighting call writes exactly one well-formed command",
  "A successful lighting_group_on / off / terminate_ramp / ramp call writes exactly one chunk: backslash, the base16 of the point-to-multipoint lighting packet for exactly the given group addresses in order, with valid checksum, the confirmation code, CR.",
  "every list of 1..9 valid group addresses, every duration and level", "all argument combinations",
  f"{PCI}::PCIProtocol.lighting_group_on", f"{PCI}::PCIProtocol.lighting_group_off", f"{PCI}::PCIProtocol.lighting_group_ramp", f"{PCI}::PCIProtocol.lighting_group_terminate_ramp", f"{PCI}::PCIProtocol._send")
p("Rejected calls have no effect",
  "A lighting, identify or clock call that raises (more than nine addresses, none, an address outside 0..255, a level outside 0..255, not connected) writes nothing and changes no state; and these are exactly the cases in which the lighting calls raise.",
  "every argument list and connection state", "unbounded argument lists",
  f"{PCI}::PCIProtocol.lighting_group_on", f"{PCI}::PCIProtocol._send")
p("Connecting resets and configures the PCI",
  "connection_made writes, in order, three resets and the three option commands that select application 0x38, interface options 3 = 0x0E and interface options 1 = 0x59, whatever happened on the object before.",
  "every prior history of the protocol object", "unbounded histories (confirmation counter)",
  f"{PCI}::PCIProtocol.connection_made", f"{PCI}::PCIProtocol.pci_reset")
p("Each received lighting command raises exactly one event",
  "For every decoded point-to-multipoint packet, PCIProtocol invokes exactly one handler per lighting or clock SAL, of the matching kind and with the SAL's values and the packet's source address, in order, and none for other packets; confirmations and PCI errors invoke their handlers once.",
  "every packet with any SAL sequence", "unbounded sequences",
  f"{PCI}::PCIProtocol.handle_cbus_packet")
p("Clock requests are answered exactly when enabled",
  "A PCIProtocol answers a clock request with exactly one clock update packet carrying both date and time when handle_clock_requests is set, and writes nothing otherwise.",
  "every request source, every current time, every state", "all times",
  f"{PCI}::PCIProtocol.on_clock_request", f"{PCI}::PCIProtocol.clock_datetime")
p("The --no-clock option stops cmqttd answering clock requests",
  "A CBusHandler created with handle_clock_requests=False (cmqttd --no-clock) writes nothing in response to a clock request from the network.",
  "every request, every time", "all states",
  f"{MQ}::CBusHandler.on_clock_request", f"{PCI}::PCIProtocol.on_clock_request")
# ---- server ---------------------------------------------------------------
p("Interface options are applied and reset exactly",
  "After a DeviceManagementPacket to parameter 0x30 or 0x41 the simulated PCI's connect / checksum / basic-mode / monitor / idmon settings are exactly the bits 0, 3, not 4, 5, 6 of the value regardless of their previous settings; other parameters change nothing; a reset restores the power-on settings; the shortcut command sets connect and leaves basic mode, keeping the rest; no other packet changes any of them.",
  "every prior state, every parameter and value", "all states by all values",
  f"{SRV}::PCIServerProtocol.handle_cbus_packet", f"{SRV}::PCIServerProtocol.on_reset")
p("Every accepted command is confirmed exactly once",
  "For each decoded command carrying a confirmation code, the simulated PCI writes exactly one success confirmation with that code if it handles the whole command, and none if it rejects it; commands without a code are never confirmed.",
  "every command packet and server state", "unbounded SAL sequences",
  f"{SRV}::PCIServerProtocol.handle_cbus_packet", f"{SRV}::PCIServerProtocol.send_confirmation")
p("Queued packets are sent once, in order, after the triggering reply",
  "Packets queued by the simulated PCI are written exactly once, in the order they were queued, immediately after the next packet it sends; nothing queued is lost or duplicated over any history.",
  "every history of server inputs", "unbounded histories",
  f"{SRV}::PCIServerProtocol._send_later", f"{SRV}::PCIServerProtocol._send")
p("Basic mode echoes exactly what was consumed",
  "While in basic mode the simulated PCI echoes every consumed byte exactly once and in order before acting on it, and in smart mode echoes nothing.",
  "every input and server state", "arbitrary inputs",
  f"{CP}::CBusProtocol.handle_data", f"{SRV}::PCIServerProtocol.echo")
p("The unit presence report covers every unit block",
  "In basic mode a master-application status request makes the simulated PCI send status blocks starting at 0, 88 and 176 whose concatenation is the whole presence table, each with a valid checksum and a correct length field.",
  "every request and server state", "length fields of all blocks",
  f"{SRV}::PCIServerProtocol.on_master_application_status", f"{ST}::StandardCAL")
# ---- end to end -----------------------------------------------------------
p("Client commands reach a simulated PCI exactly",
  "Connect a PCIProtocol to a PCIServerProtocol in any state: after the connection set-up and any sequence of successful lighting calls, however the byte stream is chopped into pieces the server's buffer can hold, the server ends up in smart mode with checksums on, has raised exactly the corresponding lighting events in order, and has confirmed every command with its code in order.",
  "every server state, every sequence of lighting calls, every chopping", "unbounded sequences by all choppings",
  f"{PCI}::PCIProtocol", f"{SRV}::PCIServerProtocol", f"{PK}::decode_packet", f"{BUF}::BufferedProtocol")
p("Events from a simulated PCI reach the client exactly",
  "Lighting on / off / terminate calls on a PCIServerProtocol in checksum mode with source addresses 1..255 raise exactly the corresponding events, in order and with the right source addresses, in a PCIProtocol with an empty buffer, however the stream is chopped.",
  "every sequence of server calls, every chopping", "unbounded sequences by all choppings",
  f"{SRV}::PCIServerProtocol.lighting_group_on", f"{PCI}::PCIProtocol.handle_cbus_packet")
p("The first event after connecting is not lost",
  "When a PCIProtocol connects to a fresh PCIServerProtocol, the first lighting event the server sends afterwards is delivered to the client.",
  "every first event", "needs the interleaving of echo, confirmation and event bytes",
  f"{SRV}::PCIServerProtocol.echo", f"{PK}::decode_packet")
p("The simulated PCI can send ramp events",
  "PCIServerProtocol.lighting_group_ramp with a level in its documented range 0.0..1.0 (including the default) sends a ramp event.",
  "every documented level", "dense numeric domain",
  f"{SRV}::PCIServerProtocol.lighting_group_ramp", f"{L}::LightingRampSAL.encode")
# ---- cmqttd ---------------------------------------------------------------
p("Topics and group addresses correspond one to one",
  "get_topic_group_address inverts set_topic, state_topic and conf_topic for every group address 0..255; for other integers it raises ValueError; the set, state, config and binary-sensor topics of all group addresses are pairwise different.",
  "every integer group address, every pair", "all pairs; unbounded integers",
  f"{MQ}::get_topic_group_address", f"{MQ}::set_topic", f"{MQ}::state_topic", f"{MQ}::conf_topic", f"{MQ}::bin_sensor_state_topic", f"{MQ}::bin_sensor_conf_topic")
p("An MQTT set message drives exactly its own group",
  "A JSON set message for a group address causes exactly one C-Bus command, for that group address only: on (full brightness, no transition), off (state other than ON) or ramp (clamped brightness and transition), and republishes the matching state; messages on other topics, unparsable topics or unparsable payloads cause none.",
  "every topic and payload", "all JSON payloads by all topics",
  f"{MQ}::MqttClient.on_message")
p("Out-of-range brightness is clamped",
  "A set message with state ON and any integer brightness behaves as if the brightness were clamped to 0..255, and a negative transition as 0.",
  "every integer brightness and transition", "unbounded integers",
  f"{MQ}::MqttClient.on_message")
p("Published state mirrors the C-Bus event",
  "Each lighting on / off / ramp event received from the C-Bus network makes cmqttd publish exactly one retained JSON state message on that group's state topic and one retained binary sensor message, with the event's level, duration and source address; other events publish nothing.",
  "every event sequence", "unbounded sequences",
  f"{MQ}::CBusHandler", f"{MQ}::MqttClient.lighting_group_ramp")
p("The light state and the binary sensor agree",
  "Whenever cmqttd publishes a light state, state ON accompanies binary sensor ON and state OFF accompanies binary sensor OFF.",
  "every event", "includes ramps to level 0",
  f"{MQ}::MqttClient.lighting_group_ramp", f"{MQ}::MqttClient.publish_binary_sensor")
p("C-Bus frames become MQTT messages end to end",
  "Any stream of well-formed lighting frames from the PCI, chopped arbitrarily, makes a connected CBusHandler publish exactly the state messages for those commands in order.",
  "every stream of frames and every chopping", "unbounded streams",
  f"{MQ}::CBusHandler", f"{PK}::decode_packet", f"{BUF}::BufferedProtocol")
p("MQTT set messages become C-Bus frames end to end",
  "For every group address, an ON, OFF or brightness set message makes cmqttd write one C-Bus line that a PCI decodes to the requested command for that group.",
  "every group address, brightness and transition", "all argument combinations",
  f"{MQ}::MqttClient.on_message", f"{PCI}::PCIProtocol._send", f"{PK}::decode_packet")
p("Discovery announces every group exactly once",
  "On connecting to the broker cmqttd subscribes to exactly the 256 set topics and publishes exactly one light and one binary-sensor configuration per group address plus the meta device, on pairwise different topics, using the project label when there is one.",
  "every label table", "256 groups by all label tables",
  f"{MQ}::MqttClient.on_connect", f"{MQ}::MqttClient.publish_all_lights")
p("cmqttd's own publications never trigger it",
  "No topic cmqttd publishes to is a topic on which on_message acts, so there is no feedback loop.",
  "every group address, every payload", "all pairs of topics",
  f"{MQ}::MqttClient.on_message", f"{MQ}::MqttClient.publish")
# ---- toolkit, registry ----------------------------------------------------
p("Application handlers are registered consistently",
  "Over any sequence of registrations, an application ID once registered keeps its handler; a conflicting or out-of-range registration raises ValueError and changes nothing; afterwards get_application returns the handler for exactly the registered IDs.",
  "every history of registrations", "unbounded histories",
  f"{AP}::_register_application", f"{AP}::get_application")
p("Labels come only from the one direct network's lighting application",
  "read_cbz_labels returns a label for a group address iff the project has exactly one non-bridge network with exactly one lighting application and that application has a group with that address and a non-default, non-blank name (the last such group wins); labels are stripped and never blank, '<Unused>' or 'Group n'.",
  "every project structure", "unbounded project trees",
  f"{MQ}::read_cbz_labels")
p("An empty project element does not become a label",
  "A group whose name element is empty in the project file gets no label.",
  "every project with such a group", "needs the XML corner case",
  f"{CBZ}::_Element.from_element", f"{MQ}::read_cbz_labels")
p("Every project field is reachable",
  "No two fields of a project element class share a normalised name, so each XML attribute or child element feeds exactly one field.",
  "every element class", "relation over all pairs of fields",
  f"{CBZ}::_Element._normalise_name", f"{CBZ}::_Element.from_element")
p("Credentials are read verbatim from the auth file",
  "read_auth sets the username to the first line and the password to the second line of the file, with surrounding whitespace removed, for every file content.",
  "every file content", "unbounded text",
  f"{MQ}::read_auth")
p("Periodic time synchronisation sends one update per period",
  "With a positive timesync_frequency the client sends one clock update immediately and one after each completed sleep until cancelled; with zero or a negative frequency it sends none.",
  "every number of periods, every frequency", "unbounded runs",
  f"{PCI}::PCIProtocol.timesync", f"{PCI}::PCIProtocol.connection_made")
# ---- later additions ------------------------------------------------------
p("A command that is not supported does not stop the simulated PCI",
  "Every complete command line that the simulated PCI receives is taken out of its buffer, whatever its handlers make of it, so that later commands are still handled.",
  "every command line, mode and state", "all packets by all modes by everything that follows",
  f"{SRV}::PCIServerProtocol.handle_cbus_packet", f"{SRV}::PCIServerProtocol.on_master_application_status", f"{BUF}::BufferedProtocol.data_received")
p("A project file is read from exactly the right places",
  "A file that is not a ZIP archive is read as XML itself; a ZIP archive is accepted iff it has exactly one member and the name of that member ends in .xml, and that member is the one read.",
  "every file", "all archives with all member lists",
  f"{CBZ}::CBZ.__init__")
p("Project elements are read field by field",
  "Reading an XML element gives every field of its class the value of the same-named attributes and children (names compared without underscores and case), converted to the field's type: lists collect every such child in order, other fields get the last one; unrelated attributes and children change nothing.",
  "every XML element of every class", "unbounded trees",
  f"{CBZ}::_Element.from_element", f"{CBZ}::_Element._normalise_name")
p("Project labels reach Home Assistant",
  "For every project file with one direct network and its lighting application, the names announced on MQTT for each group address are the stripped names of the groups in that file, and generic names for all the others.",
  "every list of groups", "unbounded project trees, through three components",
  f"{CBZ}::CBZ", f"{MQ}::read_cbz_labels", f"{MQ}::MqttClient.publish_all_lights")
p("A dump has every network, application, group and unit",
  "dump_labels writes, for every project it can read, exactly one entry for each address of a network, an application and its groups, and a unit, describing the last element with that address; the groups of a unit are the hexadecimal numbers of its GroupAddress parameters in order. The dump fails iff such a number cannot be read.",
  "every project structure", "unbounded project trees",
  f"{DL}::main", f"{CBZ}::CBZ")
p("The graph shows which unit drives which group",
  "generate_graph draws, for every dump, one subgraph per network with one node per unit, one node per group address in use, and one arrow from a unit to each of its group addresses.",
  "every dump", "unbounded numbers of units and groups",
  f"{GR}::generate_graph")
p("Unused channels are not drawn",
  "The group address 255, which marks an unused channel, does not appear in the graph.",
  "every dump", "needs the right project",
  f"{GR}::generate_graph")
p("A failed dump leaves the output file alone",
  "dump_labels changes the output file only if the dump succeeds.",
  "every project file and option", "all failing inputs",
  f"{DL}::main")
p("The daemon connects to the broker as it is told",
  "Unless TLS is disabled, cmqttd sets up TLS before it connects to the broker, with the given authority and client certificate; it uses the given port or 8883 (1883 without TLS), and the user name and password of the given file; with only one of certificate and key it connects to nothing. It connects to the PCI first, and passes on the options for the clock and the project's labels.",
  "every combination of options", "all options by all files",
  f"{MQ}::_main")
p("The daemon connects to the given C-Bus host",
  "With --tcp HOST:PORT the daemon connects to HOST and PORT.",
  "every host name or address", "unbounded texts",
  f"{MQ}::_main")
p("decode_packet prints the packet",
  "The decode_packet tool prints the decoding of its argument.",
  "every argument and option", "all packets",
  "cbus/tools/decode_packet.py::main", "cbus/tools/decode_packet.py::pretty_packet")
p("Documents are downloaded once and never overwritten",
  "fetch_protocol_docs writes a file for the terms and for every PDF link on the index page to the same server that is not there yet, no other file, no file twice, and no file that was already there.",
  "every index page and directory", "unbounded pages",
  "cbus/tools/fetch_protocol_docs.py::DocumentationParser.handle_starttag", "cbus/tools/fetch_protocol_docs.py::download_file", "cbus/tools/fetch_protocol_docs.py::download_docs")
p("Documents are written only inside the destination",
  "fetch_protocol_docs writes files only directly inside the given directory.",
  "every index page", "needs a hostile page",
  "cbus/tools/fetch_protocol_docs.py::download_file")
p("The MQTT client's socket is served while it is open",
  "Over every sequence of connections, the event loop watches exactly the socket that is open and runs at most one housekeeping task, which goes on while it succeeds and ends with the socket.",
  "every history of connections, writes and wake-ups", "unbounded histories",
  "cbus/paho_asyncio.py::AsyncioHelper")
p("A client and a simulated PCI agree under every interleaving",
  "A client and a simulated PCI that it has set up, left to act at the same time with the bytes of both directions delivered in arbitrary pieces at arbitrary times: the simulated PCI carries out exactly the calls in order, the client is told of exactly their confirmations, in order and never before the call has been carried out, and of everything the simulated PCI reports.",
  "every interleaving of calls, reports and partial deliveries", "unbounded concurrent executions",
  "cbus/protocol/pciprotocol.py::PCIProtocol", "cbus/protocol/pciserverprotocol.py::PCIServerProtocol", "cbus/protocol/buffered_protocol.py::BufferedProtocol.data_received")
p("The daemon keeps broker and network in step under every interleaving",
  "cmqttd between a broker and a simulated PCI, with messages, clock updates, reconnections, reports and partial deliveries in any order: the simulated PCI carries out exactly the commands that were asked for, in order, and the broker is sent exactly the confirmations of the messages, the announcements and the states for the events, each in order.",
  "every interleaving of messages, ticks, reconnections, reports and partial deliveries", "unbounded concurrent executions",
  f"{MQ}::CBusHandler", f"{MQ}::MqttClient.on_message", f"{MQ}::MqttClient.on_connect", "cbus/protocol/pciserverprotocol.py::PCIServerProtocol")
p("A lost connection is noticed",
  "When the connection to the PCI is lost, the object forgets the transport, resolves the future it was given, if any, and raises nothing; the future is not resolved before, and nothing is written until the next connection.",
  "every history of the daemon, however the object was created",
  "unbounded histories",
  "cbus/protocol/pciprotocol.py::PCIProtocol.connection_lost",
  "cbus/protocol/pciprotocol.py::PCIProtocol._send")
p("A packet reads as the sequence of its parts",
  "len, indexing (from either end, IndexError outside), iteration and reversed of a PointToMultipointPacket and a PointToPointPacket give its SALs or CALs in order, and of a BinaryStatusReport and a LevelStatusReport its group states or levels.",
  "every packet and index",
  "unbounded packets and indices",
  "cbus/protocol/pm_packet.py::PointToMultipointPacket.__getitem__",
  "cbus/protocol/pm_packet.py::PointToMultipointPacket.__len__",
  "cbus/protocol/pm_packet.py::PointToMultipointPacket.__iter__",
  "cbus/protocol/pp_packet.py::PointToPointPacket.__getitem__")
p("index finds an element of a packet",
  "index(x) gives the position of the first element of the packet that is x, between the bounds if any are given, and raises ValueError if there is none.",
  "every packet, element and bounds",
  "unbounded packets and bounds",
  "cbus/protocol/pm_packet.py::PointToMultipointPacket.index",
  "cbus/protocol/pp_packet.py::PointToPointPacket.index")
p("The command line of cmqttd is read as it is documented",
  "A command line is accepted iff it is made of options in any order, each written as a short name, a long name or an unambiguous abbreviation, with its argument in the next word, behind = or right behind a short name (and short ones run together in one word), and there is no --help, numbers are numbers, files can be opened, a broker is given and exactly one of --serial and --tcp is; what comes out is what the last of each option says. For every command line that is accepted, TLS is disabled iff a word says so, the clock is disabled iff a word says so, exactly one port is set, and the addresses are words of the command line or ends of them.",
  "every list of words, every table of files",
  "the command lines are unbounded, and abbreviations, joined options and repetitions interact",
  "cbus/daemon/cmqttd.py:310-419")
p("The container starts cmqttd with the options its variables promise",
  "entrypoint-cmqttd.sh starts nothing unless MQTT_SERVER and one of SERIAL_PORT and CNI_ADDR are set. Otherwise, if the values are plain words, cmqttd gets the broker, its port, the time synchronisation, the serial port in preference to the TCP address, no clock iff CBUS_CLOCK is set and not 1, no TLS iff MQTT_USE_TLS is set and not 1, and the certificates, client certificate (only with its key), login and project file that exist.",
  "every environment and every set of files",
  "seven variables and five files, each present, empty or absent, with arbitrary values",
  "entrypoint-cmqttd.sh:8-93",
  "cbus/daemon/cmqttd.py:310-419")
p("Only MQTT_USE_TLS turns off TLS in the container",
  "Whatever the other variables contain, cmqttd is started by the container without TLS iff MQTT_USE_TLS is set, not empty and not 1.",
  "every environment",
  "the other values are arbitrary texts",
  "entrypoint-cmqttd.sh:23-93")
p("Numbers and white space in texts are read as Python's manual says",
  "`int(s)` succeeds iff s is, apart from surrounding white space, an optional sign and digits of any script with single underscores between digits, and then gives their value; `int(s, 16)` likewise with letters a to f and an optional prefix 0x; otherwise ValueError is raised. `strip` removes exactly the white space in front and at the end. `str(i)` and `f'{i:03d}'` write i in ASCII digits, the latter with at least three characters.",
  "every text, every table of digits and white space that agrees with ASCII, every integer",
  "the texts come from topics, messages and project files and are unbounded; the behaviour at signs, underscores and other scripts is rarely tried",
  "cbus/daemon/cmqttd.py:52-59",
  "cbus/daemon/cmqttd.py:149-154",
  "cbus/daemon/cmqttd.py:196",
  "cbus/toolkit/cbz.py:54-109",
  "cbus/toolkit/dump_labels.py:96-97")
p("A project file with which something is wrong raises the exception for the first thing wrong",
  "An attribute or a child's text is converted iff it is a value of the field's type, otherwise the exception is ValueError for a text that is no number or UUID and TypeError for a field that cannot be built from a text or where there is no text. An element fails iff one of its attributes or, failing that, the first wrong child in document order is wrong, with that one's exception. Labels that cannot be read raise AttributeError; a dump raises AttributeError or ValueError for the first unit whose GroupAddress parameter has no value or a part that is not hexadecimal.",
  "every XML tree, every class, every exception",
  "which exception comes first depends on the whole tree, and on both fields and order",
  "cbus/toolkit/cbz.py:54-109",
  "cbus/daemon/cmqttd.py:274-307",
  "cbus/toolkit/dump_labels.py:31-110")
p("Everything received is decoded by one grammar of messages, and what is invalid carries its reason",
  "For every content of a receive buffer, every checksum and strictness setting and both directions, decode_packet returns exactly the result that a grammar written down separately assigns to the buffer: notifications, confirmations, special commands, cancelled and incomplete input, empty lines, and lines with their text, checksum, flags, source, confirmation, payload, applications, SALs and CALs. Invalid parts appear as an invalid packet with the remaining bytes and the exception of the rule that refuses them. The number of consumed bytes is part of the result. A buffer to which the grammar assigns nothing raises.",
  "every byte sequence, both checksum and strict settings, both directions",
  "there are infinitely many buffers, and which rule refuses a malformed message, and with which exception, depends on the order of all checks",
  "cbus/protocol/packet.py:43-257",
  "cbus/protocol/pm_packet.py:99-114",
  "cbus/protocol/pp_packet.py:83-152",
  "cbus/protocol/dm_packet.py:43-64",
  "cbus/protocol/application/lighting.py:67-107",
  "cbus/protocol/cal/__init__.py:28-33",
  "cbus/protocol/cal/extended.py:58-75", "cbus/protocol/cal/reply.py:48-58", "cbus/protocol/application/clock.py:53-110",
  "cbus/protocol/application/temperature.py:56-110", "cbus/protocol/application/enable.py:46-90",
  "cbus/protocol/application/status_request.py:50-100")
p("Everything sent is written byte by byte as one specification says, or refused for the reason it gives",
  "For every packet object with valid clock dates and times, encode_packet returns exactly the characters that a specification written down separately assigns to it (flags, source, application, routing byte, every SAL or CAL in order, the checksum if asked for, all in upper-case hexadecimal; the special packets as their fixed strings), and where the specification names an exception, that exception is raised: the first part that cannot be written decides which one.",
  "every packet, with any number of SALs or CALs and any argument values",
  "the packets and their arguments are unbounded, and which of several wrong parts is reported depends on the order of the checks",
  "cbus/protocol/base_packet.py:52-114",
  "cbus/protocol/pm_packet.py:116-136",
  "cbus/protocol/pp_packet.py:154-174",
  "cbus/protocol/dm_packet.py:66-77",
  "cbus/protocol/confirm_packet.py:31-41",
  "cbus/protocol/cal/report.py:113-128",
  "cbus/protocol/cal/report.py:205-212",
  "cbus/protocol/cal/extended.py:48-55",
  "cbus/protocol/application/lighting.py",
  "cbus/protocol/application/clock.py",
  "cbus/protocol/application/temperature.py",
  "cbus/protocol/application/enable.py",
  "cbus/protocol/application/status_request.py")
p("JSON read from the broker is what its text says, and JSON published is read back as what was meant",
  "json.loads accepts exactly the texts of the JSON grammar (with Python's NaN and Infinity) and returns the value the text stands for: escapes, surrogate pairs, numbers without leading zeros, white space, the last of several members of the same name; the same for the UTF-8 bytes of the text. json.dumps writes such a text of printable ASCII characters for every value with distinct names. Everything the daemon publishes as JSON - configurations with any names of lights, states, confirmations - is read back by the receiver as exactly the value that was meant.",
  "every text and every byte sequence in UTF-8, every JSON value, every message the daemon publishes, any names of lights",
  "texts and nesting are unbounded; names come from a project file and may contain any character",
  "cbus/daemon/cmqttd.py:144-148",
  "cbus/daemon/cmqttd.py:173-176",
  "cbus/daemon/cmqttd.py:178-264")
p("The example scripts drive exactly the group they are given",
  "cbus_on, cbus_off and cbus_ramp with the decimal text of a group address (and two numbers) publish one message, which makes a connected daemon write exactly one line, the on, off or ramp command for exactly that group, and publish its new state; with anything that is no group address, or with arguments that do not make the message JSON, nothing happens. cbus_listen and cbus_config listen to exactly the topics on which the daemon publishes state and configuration of that light. Without an argument the scripts only print how they are called.",
  "every argument text, every state of a connected daemon, shells with and without [[",
  "the arguments are pasted into a topic and a JSON text, so what they do depends on the parsers of the daemon for every text",
  "scripts/cbus_on:10-17",
  "scripts/cbus_off:10-17",
  "scripts/cbus_ramp:10-18",
  "scripts/cbus_listen:10-17",
  "scripts/cbus_config:10-20")
p("All that a client does with all that it receives",
  "Whatever a PCI sends, in whatever pieces, the client (and the daemon built on it) does exactly what a written conversation prescribes: it waits while a message is incomplete, skips what is not a message, calls one handler for each event of a message, in order, answers a request for the time with one well formed line that carries the next confirmation code and the time of that moment, raises exactly on overlong input and on lines that cannot be read, and otherwise neither writes nor changes anything.",
  "all starting buffers, all sequences of pieces of any content and length, all states of a connected client, all behaviours of the clock",
  "The space of byte streams and of their divisions into pieces is infinite, and the property is about everything that happens and about nothing else happening.",
  "cbus/protocol/buffered_protocol.py:63-110",
  "cbus/protocol/cbus_protocol.py:54-79",
  "cbus/protocol/pciprotocol.py:99-369",
  "cbus/daemon/cmqttd.py:99-118")
p("All that the simulated PCI does with all that it receives",
  "Whatever a client sends, in whatever pieces, a connected simulated PCI does exactly what a written conversation prescribes: in basic mode it sends back what it takes out of its buffer; a reset, smart connect and the two option parameters change its settings as their bits say; commands are obeyed one after the other until one is not understood; what is obeyed completely is confirmed once, followed by the queued events; a clock update queues one on and one off event for random groups; a request for the status of all units is answered with three lines in basic mode and raises in smart mode; overlong input and lines that cannot be read raise; otherwise it neither writes nor changes anything.",
  "all starting buffers, all sequences of pieces of any content and length, all states of a connected simulated PCI, all outcomes of the random generator",
  "The space of byte streams and of their divisions into pieces is infinite, modes change how later bytes are read, and the property is about everything that happens and about nothing else happening.",
  "cbus/protocol/pciserverprotocol.py:88-382",
  "cbus/protocol/buffered_protocol.py:63-110",
  "cbus/protocol/cbus_protocol.py:54-79")
p("All that the daemon does with all that happens to it",
  "Whatever happens to a running cmqttd, in whatever order - the C-Bus connection is made or lost, bytes arrive from the PCI, the clock task takes a turn, the broker connects, a message with any payload arrives on any topic - it does in each step exactly what is written down: setting up the PCI, resolving the future once, publishing the state of every light that the network reports if it has ever been connected to the broker, telling the time with the next confirmation code, announcing all lights, and for a message on the set topic of a light one line with the command and the two messages of its new state. A message on another topic or that is not JSON is ignored; JSON that is no set message, a negative brightness and a missing C-Bus connection raise the prescribed exception and nothing is sent.",
  "all sequences of steps in which bytes arrive only over a connection, all bytes, topics, payloads and labels, all settings and states, all readings of the clock",
  "The histories are unbounded and interleave two peers; the property is about everything that is sent and about nothing else being sent.",
  "cbus/daemon/cmqttd.py:87-264",
  "cbus/protocol/pciprotocol.py:83-138",
  "cbus/protocol/pciprotocol.py:315-413",
  "cbus/protocol/pciprotocol.py:539-552")
p("The serial redirector passes everything on",
  "With `scripts/tcp_serial_redirect.py` between a serial interface and the network, as docs/hacking.rst proposes, every byte of either side reaches the other unchanged and in order, however it is cut into pieces and however both directions interleave; a client behind it therefore does exactly what it would do on the serial port. When the network side ends or fails, at most one more turn is passed on and then both loops end. Port, speed and newlines are taken from the options or the arguments as documented.",
  "all interleavings of turns of the two threads, all data and pieces, all options and arguments, all states of the client",
  "The two threads can interleave in any way and the data can be cut anywhere; a test sees one interleaving and one cutting.",
  "scripts/tcp_serial_redirect.py:45-128",
  "scripts/tcp_serial_redirect.py:257-345",
  "docs/hacking.rst:47-70")
p("The redirector converts every newline",
  "With `--convert`, each newline of one side becomes a newline of the other and everything else stays, however the stream is cut into pieces; with CR+LF on the serial side (the default) a text that goes there and back is unchanged.",
  "all texts, all cuttings, the three kinds of newlines on each side",
  "Whether a newline is cut in two depends on timing; a test sends whole lines.",
  "scripts/tcp_serial_redirect.py:77-80",
  "scripts/tcp_serial_redirect.py:108-111")
p("A discovery query is answered as a network interface answers it",
  "`experiments/cni_discovery.py` answers every datagram that begins with the query command, and no other, with exactly one datagram to the sender, in the layout of docs/cni-discovery.rst and with the port on which interfaces listen, 10001; its answers are not answered in turn.",
  "all datagrams and senders",
  "Any datagram can arrive on a broadcast port; a test sends a few.",
  "experiments/cni_discovery.py:34-95",
  "docs/cni-discovery.rst:10-48")
p("A standard status report is written as one and read back as it was",
  "StandardCAL.encode writes, for any application, block and group states, a CAL that announces a standard status report; decode_cal reads the rest back as the same application, block and states (padded to a multiple of four); encode_packet is its base16 text, with a checksum if asked for; decode_cal raises IndexError on fewer than two bytes and nothing otherwise.",
  "every application, block and list of group states; every byte string",
  "unbounded lists; the tests never call decode_cal",
  "cbus/protocol/cal/standard.py::StandardCAL.encode",
  "cbus/protocol/cal/standard.py::StandardCAL.encode_packet",
  "cbus/protocol/cal/standard.py::StandardCAL.decode_cal")
p("A connection that the broker refuses is not taken for a connection",
  "When the broker refuses the connection (return code other than 0), on_connect subscribes to nothing, publishes nothing and leaves the C-Bus side without an MQTT client; when it accepts, all lights are announced.",
  "every return code, label table and state",
  "needs a broker that refuses; the tests have none",
  "cbus/daemon/cmqttd.py::MqttClient.on_connect")
p("Reports from the network keep a TCP connection up and all become messages",
  "A daemon connected to a network interface over TCP publishes the messages for all the events that are reported to it and stays connected, however the reports are cut into pieces; it ends only if what arrives cannot be read.",
  "every sequence of reports, every chopping, every time and state",
  "a burst depends on timing; no test connects through a socket",
  "cbus/protocol/buffered_protocol.py::BufferedProtocol.data_received",
  "cbus/protocol/pciprotocol.py::PCIProtocol.connection_lost",
  "cbus/daemon/cmqttd.py:424-469")
p("Only documents are saved as documents",
  "Whatever the server answers, every file that fetch_protocol_docs saves contains the document that the server has under a link with that name; files that were there are left alone, a run that ends well leaves a file for every document of the page, and a run that fails can be repeated.",
  "every index page, every answer to every request, every destination and its files, every number of runs",
  "no test makes requests, let alone ones that fail",
  "cbus/tools/fetch_protocol_docs.py::download_file",
  "cbus/tools/fetch_protocol_docs.py::download_docs")
p("The command lines of the tools are read as they are documented",
  "dump_labels takes one file, with --output and --pretty; graph takes one file that can be opened, with --output, which is required; fetch_protocol_docs takes one destination; the test program of pciprotocol takes exactly one of --serial and --tcp and opens that serial port or connects to that host and port; the simulated PCI takes an address and a port, which are 127.0.0.1 and 10001 if they are not given. For every list of words the tool accepts it iff it is a line of such options (short, long, abbreviated, run together, with their arguments in one of the usual places) and words, without --help, and the last of each option counts. decode_packet reads its options likewise but accepts no command line.",
  "every list of words, every table of files that can be opened",
  "the command lines are unbounded, and abbreviations, negative numbers, joined options and double dashes interact",
  "cbus/toolkit/dump_labels.py:31-59",
  "cbus/toolkit/graph.py:74-91",
  "cbus/tools/decode_packet.py:38-69",
  "cbus/tools/fetch_protocol_docs.py:114-125",
  "cbus/protocol/pciprotocol.py:582-624",
  "cbus/protocol/pciserverprotocol.py:492-497")
p("The command line of the redirector is read as it is documented",
  "For every list of words, `scripts/tcp_serial_redirect.py` accepts it iff it consists of its options (by letter, by name or by an abbreviation that fits one name only, with arguments in the next word, behind the letter or behind `=`) and at most a port and a speed, without --help, with numbers where numbers are needed and with known newlines, and with a port from the options or from the arguments but not both; the last of each option counts. The help is printed iff it is asked for before anything wrong. It opens the serial port with the given settings, sets the given lines and then listens on the given port iff the serial port could be opened. It ends with code 0 after the help, 2 if it does not accept the line and 1 if the port cannot be opened.",
  "every list of words, every reading of numbers, whether or not the port can be opened, everything that happens later",
  "command lines are unbounded and abbreviations, joined letters, arguments that look like options and double dashes interact",
  "scripts/tcp_serial_redirect.py:131-326")
p("The redirector serves one connection after another",
  "Whatever happens to the redirector, in whatever order, it serves one connection at a time: nobody is accepted before the last has been left, each gets only data of the serial port that arrive while it is served, a later connection is served exactly as the first, and after Ctrl-C nothing is done. With --spy all that is passed on is shown, as it is on the serial port, in a form from which every byte can be read back; without it nothing is shown.",
  "all sequences of connections, failures to accept, turns of both loops, failures of the port and interrupts; all data and settings",
  "the histories are unbounded and two threads interleave; a test sees one session",
  "scripts/tcp_serial_redirect.py:64-122",
  "scripts/tcp_serial_redirect.py:327-349")
p("A serial port that fails ends the connection",
  "When the serial port of the redirector fails (an adapter is pulled out), the connection that is being served ends, so that the client at its other end notices and can connect again.",
  "all states of the loops, all that happens later",
  "it takes a failing port, and the property is about all that comes later",
  "scripts/tcp_serial_redirect.py:64-91",
  "scripts/tcp_serial_redirect.py:101-122",
  "scripts/tcp_serial_redirect.py:327-349")
p("The simulated PCI serves each client as if there were no others",
  "Every client that connects to the simulated PCI program is greeted with the power-on notice and then gets exactly what a PCI in the state of power-up answers to the pieces that this client sends. What other clients send, when they come and go, and whether their connections end with an error makes no difference to it. A client that never connects is sent nothing.",
  "for all numbers of clients, all interleavings of connecting, sending any bytes in any pieces and leaving, and all confirmations' random numbers",
  "The interleavings of several clients are unbounded, and shared state between protocol objects (a class attribute, a module global, a single protocol instance) shows only when two sessions overlap in the right way; the tests drive one server object at a time.",
  "cbus/protocol/pciserverprotocol.py:60-86",
  "cbus/protocol/pciserverprotocol.py:479-489",
  "cbus/protocol/buffered_protocol.py:63-86")
p("The daemon logs where and as much as it is told",
  "With --log-file, everything the daemon logs at or above --verbosity goes to that file; without it, to standard output; nothing below the verbosity is written. (False: cbus.common configures logging when it is imported, so that the daemon's own configuration does nothing.)",
  "for every --log-file and --verbosity, every logger of the package and every level",
  "No test starts the daemon and looks where its log went; whether a call of basicConfig has an effect depends on what other modules did when they were imported.",
  "cbus/common.py:311",
  "cbus/daemon/cmqttd.py:425-427",
  "cbus/protocol/pciprotocol.py:610-612",
  "cbus/protocol/pciserverprotocol.py:47-48",
  "docs/cmqttd.rst (Logging)")
p("A PCI that powers up again is configured again",
  "When the PCI announces that it has powered up, the client configures it as it does when it connects, so that events go on being understood. (False: a power-up is only logged, and on_pci_power_up is never called. From then on the PCI sends no checksums, the client requires them, and every event is lost.)",
  "for every client whatever its handlers do, every later sequence of network events and every chopping of the bytes",
  "The tests never let a PCI restart under a connected client; that nothing at all gets through needs all events, units and choppings.",
  "cbus/protocol/pciprotocol.py:99-138",
  "cbus/protocol/pciprotocol.py:281-290",
  "cbus/protocol/pciprotocol.py:371-413",
  "cbus/protocol/pciserverprotocol.py:75-90")
p("A ramp that C-Bus has no duration for is refused",
  "lighting_group_ramp raises an exception for a duration of more than 1020 seconds, as its documentation says. (False: it sends the ramp of 1020 seconds.)",
  "for every group address, level, longer duration and state of the client",
  "A test tries a few durations; the documented refusal concerns all of the unboundedly many longer ones.",
  "cbus/protocol/pciprotocol.py:486-510",
  "cbus/common.py:314-328")
p("A lost connection to the broker is made again",
  "After the connection to the broker is lost, the daemon connects again. (False: nothing is left in the event loop that would call the MQTT client, and publishing without a socket does nothing. The daemon goes on without a broker until it is restarted, and does not end.)",
  "for every history of calls of the MQTT client before and after the loss",
  "It is about all continuations of an execution after a fault that tests do not inject.",
  "cbus/paho_asyncio.py:6-35",
  "cbus/daemon/cmqttd.py:465-469")
p("The daemon writes nothing to the network but what it is there for",
  "Whatever happens to cmqttd in whatever order, everything it writes to the PCI is exactly one line, and that line is: a reset or one of its three settings, when the connection is made; the date, the time and an unknown daylight saving flag together in one clock command, when it is the turn of the clock task or when something is received; or one command for one group of the lighting application, when a message on the set topic of that very group has come from the broker. So nothing that is received from the network and nothing on another topic ever moves a light, and no payload can put a second command into a line.",
  "every sequence of connections, losses, bytes received, ticks and messages",
  "A test looks at the output for a few inputs; that there is no input at all for which something else is written needs every topic, every payload and every stream of bytes from the network.",
  "cbus/daemon/cmqttd.py:99-171",
  "cbus/protocol/pciprotocol.py:83-170",
  "cbus/protocol/pciprotocol.py:328-580",
  "docs/cmqttd.rst")
p("The broker shows the level that a light comes to",
  "Once the network has said which level a light is to have, the last brightness that cmqttd has published for its group is the level at which the light comes to rest, also when a ramp is stopped on its way (terminate ramp).",
  "every history of timed lighting events, every light",
  "What a light shows at the end depends on the whole history of events and on the times between them; a test fixes one history.",
  "cbus/daemon/cmqttd.py:99-115",
  "cbus/daemon/cmqttd.py:228-276",
  "cbus/protocol/pciprotocol.py:218-230")
p("Only the default lighting application is published",
  "Whatever bytes arrive from the network, in whatever pieces, each message that cmqttd publishes because of them is the state of a group for which one whole line among them has a lighting command of the default application 0x38, sent to all units without a route, with a valid checksum; commands of other applications, of other lighting applications, in damaged lines, in other kinds of packets or put together from pieces of different lines are never shown.",
  "every sequence of bytes, every content of the receive buffer",
  "That nothing else leads to a publication is a statement about all byte sequences, including the damaged ones; tests feed a few good frames.",
  "cbus/daemon/cmqttd.py:99-115",
  "cbus/protocol/pciprotocol.py:99-138",
  "cbus/protocol/packet.py",
  "docs/cmqttd.rst:35")
p("Every message that is received calls a handler",
  "Whenever PCIProtocol receives a whole and valid message it calls at least one of its on_... handlers, so that a subclass can take notice of everything the network says (status reports among it, for which on_mmi is documented).",
  "every valid message of up to 256 characters, every state of a connected client",
  "The kinds of messages and their contents are unbounded; which of them fall through every branch of the dispatcher is only visible over all of them.",
  "cbus/protocol/pciprotocol.py:99-138",
  "cbus/protocol/pciprotocol.py:152-170",
  "cbus/protocol/pciprotocol.py:234-290")
p("A command that the PCI refuses is not taken for carried out",
  "When the PCI answers a command, that cmqttd gave for a message from the broker, with the confirmation code of that command and another character than a full stop, the daemon sends something to the PCI or tells the broker. (False: the refusal only reaches on_confirmation, which logs it. What holds for every message, every state and every answer: on_confirmation is called exactly once, with the code of that very command, and is told whether it was accepted.)",
  "all messages, all connected states with an empty buffer, all commands written, all confirmation characters",
  "A test checks the positive confirmation of a chosen packet; nothing is observable in it about what a refusal should change, and the claim ranges over every command and every state of the code counter.",
  "cbus/protocol/pciprotocol.py:97-150",
  "cbus/protocol/pciprotocol.py:315-372",
  "cbus/daemon/cmqttd.py:61-130")
p("When all is quiet the broker shows what the lights are",
  "cmqttd, its PCI and the network, with commands from the broker on their way to the network and commands of other units on their way to the daemon, in any order: whenever nothing is on its way any more, the broker shows for every light the level that the last command on the network has given it. (False: a message and the command of another unit for the same light that cross each other leave the broker showing the wrong one for good, since the daemon publishes a state before its command is on the network. It holds for every history in which no two commands for the same light cross.)",
  "every history of messages, commands of other units, deliveries in both directions, confirmations and clock ticks; every light; every state of the daemon",
  "The race needs two parties and a particular order of four deliveries; the positive part is an invariant over histories of any length.",
  "cbus/daemon/cmqttd.py:99-183",
  "cbus/daemon/cmqttd.py:241-279",
  "cbus/protocol/pciprotocol.py:327-372")
p("A light that is set through one daemon is shown alike by another",
  "For every message on which cmqttd sends a command to the network, every other cmqttd on the same network that is told of this command publishes the same state, brightness and binary sensor for the same light, and as transition the time that the light actually takes for the time that was asked for.",
  "every topic and payload, every pair of states of the two daemons, every source address",
  "Two directions of the code (from JSON to bytes, from bytes to JSON) must agree for every group, level and transition; a test can only compare a few.",
  "cbus/daemon/cmqttd.py:99-183",
  "cbus/daemon/cmqttd.py:241-279",
  "cbus/protocol/application/lighting.py:1-284")
p("Every state that cmqttd shows has been said",
  "Whatever happens to cmqttd from its start on, each state that it publishes for a group was either asked for in that moment by a message on the set topic of that very group, or it is what one line of the network says, which stands in one piece in what was received up to then. So of a light of which nobody has said anything nothing is shown, and halves of different lines are never put together.",
  "every history of connections, losses, bytes received in any pieces, ticks and messages of a daemon whose receive buffer is empty at first",
  "the claim is about all the ways in which bytes can be cut into pieces and mixed with other happenings, and about what is never published",
  "cbus/protocol/buffered_protocol.py:63-85",
  "cbus/daemon/cmqttd.py:87-118",
  "cbus/daemon/cmqttd.py:129-171",
  "cbus/daemon/cmqttd.py:235-264")
p("Connecting to the broker moves no light",
  "Whenever cmqttd connects to the broker, for the first time or again, it writes nothing to the C-Bus network because of that: the states and configurations that it has left at the broker do not come back to it as commands, and neither does anything else that the broker has kept.",
  "every history of publications of others, connections to the broker and their losses, and happenings on the C-Bus side; every content of the payloads",
  "the claim is about all histories of two programs, and what the broker keeps depends on all that was ever published",
  "cbus/daemon/cmqttd.py:123-127",
  "cbus/daemon/cmqttd.py:129-171",
  "cbus/daemon/cmqttd.py:173-176")
p("A light takes the time that it is told to take",
  "When a message on the set topic of a group asks for a transition of up to 1020 seconds, the command that cmqttd puts on the network takes the shortest time that C-Bus has and that is not shorter than asked.",
  "every set message that a connected daemon can carry out, every transition from 0 to 1020 seconds, also with fractions",
  "transitions are any numbers, and the claim relates them to the times of the sixteen ramp commands",
  "cbus/daemon/cmqttd.py:148-171",
  "docs/cmqttd.rst:300-310",
  "cbus/common.py:314-328")
p("The transition that is shown is the one that the light takes",
  "The transition in the state that cmqttd publishes when it carries out a set message is the time that the command takes on the network, so that it is the same that any other unit and any other daemon sees.",
  "every set message that a connected daemon can carry out",
  "transitions are any numbers, and the claim relates what is published to what is written to the network",
  "cbus/daemon/cmqttd.py:148-171",
  "cbus/daemon/cmqttd.py:255-264")
p("A directory of CA certificates is trusted",
  "With --broker-ca and a directory of CA certificates, as its help and the documentation of the container describe it, the daemon connects over TLS to a broker whose certificate is from one of the authorities in the directory.",
  "all worlds (devices, hosts, files, brokers, certificates), all options and project files, all environments of the container",
  "Unit tests do not start the daemon; whether a directory can be given depends on which argument of the ssl module the option ends up in, for every directory and every broker.",
  "cbus/daemon/cmqttd.py:358-361 --broker-ca",
  "cbus/daemon/cmqttd.py:457-463 _main",
  "entrypoint-cmqttd.sh:49-55")
p("A password goes only to a broker that is trusted",
  "Unless TLS is disabled, the daemon connects to a broker, and so gives it the user name and the password of the auth file, only if the certificate of the broker is for the name that was given and from an authority that was asked for: one of the file of --broker-ca, or one of Python's if that is not given. The certificate that the daemon itself shows is the one that was given, if any.",
  "all worlds (devices, hosts, files, brokers, certificates), all options and project files",
  "That no combination of options and no failure on the way leads to a connection without verification is a statement about all of them.",
  "cbus/daemon/cmqttd.py:450-467 _main",
  "cbus/daemon/cmqttd.py:358-378 options")
p("The daemon starts completely or ends",
  "The daemon runs exactly if its command line and project file are good, the PCI can be opened, the files that TLS needs are good, the address, the port and the keepalive are such as MQTT allows (not empty, positive, from 0 to 65535), and a broker answers at the given address and port within the time of the keepalive, with a trusted certificate if TLS is used. The steps are done in one order, nothing is done after a step that fails, and the connection to the broker comes last, so that a broker never hears of a daemon without a PCI.",
  "all worlds (devices, hosts, files, brokers, certificates), all options and project files",
  "It speaks of every way in which every step can fail; tests do not start the daemon.",
  "cbus/daemon/cmqttd.py:421-469 _main")
p("The variables of the container decide what the daemon does",
  "When a container runs, the steps that it has taken are exactly those that its variables and files ask for: the serial port or the CNI is opened, the user name and password of the file are set if there is one, TLS is set up with the files that are there unless it is turned off, and the broker is called at the address and the port that are given, or the port that is usual with or without TLS. The handler sets the PCI up, sends the time at once and after every so many seconds if the number given is positive and never otherwise, is set to answer requests for the time unless told not to, and announces the lights under the names of the project file, or generated names without one.",
  "all environments whose values are plain words, all files, all worlds in which the container comes to run, all handlers and states of the clients, all numbers of seconds",
  "It composes the shell script, the command line, the start of the daemon, the client of the network and that of the broker; a test of one of them cannot see a value lost between two, and the combinations of variables and files are unbounded.",
  "entrypoint-cmqttd.sh:1-93",
  "cbus/daemon/cmqttd.py:92-95, 421-469",
  "cbus/protocol/pciprotocol.py:69-150")
p("A UTF-8 auth file gives its user name and password in every locale",
  "If the file given with --broker-auth is in UTF-8, as its help demands, and its first line is the user name and its second the password, whatever the line endings, then read_auth sets exactly those, whatever the encoding of the machine's locale is; a file that cannot be decoded never leads to a login.",
  "every user name, password, rest of the file, line ending and locale encoding that contains ASCII",
  "encodings times unbounded texts; tests run in one locale",
  "cbus/daemon/cmqttd.py::_main",
  "cbus/daemon/cmqttd.py::read_auth")
p("The documented docker commands connect as the documentation says",
  "The three `docker run` commands of the documentation open the PCI and connect to the broker that they name: the first and the third without TLS on port 1883, the second with TLS on port 8883 and with the user name and password of /etc/cmqttd/auth; and no variable other than the seven documented ones has any influence.",
  "every environment, every content of the files, every world in which devices and brokers may fail",
  "the commands run in containers that tests do not have; the influence of a variable is a statement about all environments",
  "entrypoint-cmqttd.sh",
  "docs/cmqttd.rst",
  "cbus/daemon/cmqttd.py::_main")
p("A quiet connection to the broker is kept up",
  "While the broker answers within the keepalive and the event loop is not held up, the connection to the broker stays open however little or much is sent: the client never closes it, and never stays silent for one and a half times the keepalive, after which the broker would close it. (False for a keepalive of one or two seconds, as the keepalive is looked at once a second only; true from three seconds on.)",
  "all keepalives, all histories of packets and calls of loop_misc at any times, all rhythms of the housekeeping task",
  "The failure needs a coincidence of times; tests sample a few moments of a connection that lasts for months.",
  "cbus/paho_asyncio.py:30-35",
  "cbus/daemon/cmqttd.py:467")
p("A broker that is gone is noticed",
  "If nothing comes from the broker any more, the client closes the connection within twice the keepalive and the pause of the housekeeping task, whatever the daemon goes on sending; with a keepalive of 0 it never does.",
  "all positive keepalives, all histories before and after the broker falls silent, all rhythms of the housekeeping task",
  "The bound is over all moments at which the broker can fall silent, with or without a ping under way.",
  "cbus/paho_asyncio.py:30-35",
  "cbus/daemon/cmqttd.py:467")
p("Every document is saved with its own contents",
  "After a run of fetch_protocol_docs that ends well, each document that the index links to is in the destination under its name, with the contents that the server has for it. (False: a document whose name was already used by another one is skipped like one that was downloaded earlier.)",
  "all pages, servers, destinations and files",
  "The index page and what the server has are not under the control of a test.",
  "cbus/tools/fetch_protocol_docs.py:55-85",
  "cbus/tools/fetch_protocol_docs.py:88-111")
p("What cmqttd does depends on nothing that it has done before",
  "Two daemons to which the same happens do the same, if they are connected to the same things and have the same in their receive buffers: whatever has happened to them before, and whatever their clocks show. Only confirmation codes and the time in the lines that tell the time may differ. What a message from the broker does depends on even less: only on whether there is a connection to C-Bus. So a message that the broker delivers twice gives the same command and the same state twice, and leaves lights and broker as once.",
  "every pair of states, of histories before and of clocks; every sequence of connections, losses, bytes received, ticks and messages that follows; every topic and payload",
  "It compares all pairs of histories (a property of two runs, not of one); tests can only compare chosen pairs.",
  "cbus/daemon/cmqttd.py:87-213",
  "cbus/daemon/cmqttd.py:215-420",
  "cbus/protocol/pciprotocol.py:68-81",
  "cbus/protocol/pciprotocol.py:315-369")
p("Daemons do not set each other off",
  "Several cmqttd on the same network and the same broker, each with its own interface: whatever one of them writes, for whatever reason, another one that hears of it on the network writes nothing; and whatever one of them publishes, no other one acts on it when the broker delivers it. So every line that any of them ever writes is written because of something from outside - a message, a tick, a connection, another unit - and commands never go round in circles.",
  "every number of daemons, every state of each, every history of things from outside, lines heard and messages delivered, with any delay and any number of times",
  "It is about unbounded numbers of daemons and unbounded chains of cause and effect between them; a test can only follow some.",
  "cbus/daemon/cmqttd.py:87-213",
  "cbus/daemon/cmqttd.py:215-420",
  "cbus/protocol/pciprotocol.py:120-210")
p("The downloads are what the links refer to",
  "For every index page, the addresses that fetch_protocol_docs requests are those that the references of the page refer to by RFC 3986, section 5 (resolved against the address of the index), as far as they are PDF documents of the same server over HTTP or HTTPS - each once per reference, in the order of the page, with the parts of the address as they were given and the scheme in small letters.",
  "every list of references with any scheme, authority, path, query and fragment that RFC 3986 allows to be told apart",
  "References are unbounded texts with unbounded numbers of path segments and dots; the unit tests do not call the tool.",
  "cbus/tools/fetch_protocol_docs.py:27-52",
  "cbus/tools/fetch_protocol_docs.py:69-70")
p("No link keeps the tool from the documents",
  "For every index page and every directory, if all requests are answered then every document that the page refers to is in the directory when fetch_protocol_docs ends, whatever other links the page has.",
  "every page (list of start tags with attributes), every destination, every earlier contents, every server",
  "A page may contain any texts as links, and one among unboundedly many is enough to change what becomes of the others.",
  "cbus/tools/fetch_protocol_docs.py:38-52",
  "cbus/tools/fetch_protocol_docs.py:55-111")
p("The drawing tells the units apart",
  "In the drawing that the dot file describes, where a node is what has one text: from the node of a unit there are arrows to the group addresses of that unit, other than 255, and to no others; so that the groups of every unit of every network can be read off.",
  "every dump, every unit of every network, every group address",
  "It is about all projects with any number of units and names; a test has to choose the names.",
  "cbus/toolkit/graph.py:45-67")
p("What dump_labels writes, graph can read and draw, whatever the indentation",
  "Whenever cbz_dump_labels ends without an error, for any project file and any --pretty, its output file holds only printable ASCII and line ends; graph reads it back as exactly the value that was dumped and draws it without an error. The indentation makes no difference to the drawing: two runs on one project with any two --pretty give the same graph. For a project written as the Toolkit writes it the drawing made from the file shows each network with its units and groups. A dump that fails leaves the file as it was or a file that graph refuses.",
  "For all project files, all indentations, all Unicode tables, and all parameters of the JSON reader.",
  "The two programs are only joined by a file; a test can run the pair on a few projects, not on every name, every repeated address and every indentation.",
  "cbus/toolkit/dump_labels.py:30-122",
  "cbus/toolkit/graph.py:28-71")
p("Lights can be found, operated and watched in Home Assistant",
  "By the rules that Home Assistant documents for MQTT discovery and for JSON lights, the messages that cmqttd publishes on connecting make exactly one entity for the daemon and a dimmable light and a binary sensor for every group address, no two with the same identity, whatever the labels. Over any history in which lights are switched and dimmed from these entities and by other units on the network: nothing fails; the commands sent on the network are those asked for, for the right group and in that order; and each light is shown in exactly the states it was put in, one after the other, so that in the end it is shown as it was last put. Nothing that is done to one light is shown at another.",
  "For all labels, all sequences of service calls (any group, any brightness from 1 to 255 or none, any transition or none) mixed with any commands of other units in any spelling, all Unicode tables and all parameters of the JSON reader and writer that write the transitions exactly, starting in any state in which the daemon is connected on both sides with nothing half read.",
  "Three programs and two wire formats take part; a test can play one conversation with a stand-in for Home Assistant, not every one, and not for every light that must stay unaffected.",
  "cbus/daemon/cmqttd.py:99-115",
  "cbus/daemon/cmqttd.py:123-275",
  "docs/cmqttd.rst:9-14",
  "docs/cmqttd.rst:290-345")
p("A set message that is delivered more than once does no harm",
  "MQTT delivers messages with QoS 1 at least once and may begin again with ones already delivered. However often that happens, the lights come to the same levels and the broker keeps the same messages on all topics as if every message had been delivered once; whatever is in the messages, and whatever the daemon did before.",
  "For all sequences of messages (any topics and payloads), all repetitions that the MQTT standard allows, all states of a connected daemon, all Unicode tables and all JSON readers.",
  "Repetitions come from lost connections at arbitrary moments; a test can repeat one message, not every suffix of every sequence.",
  "cbus/daemon/cmqttd.py:123-171",
  "cbus/daemon/cmqttd.py:235-275")
p("After a start the broker shows what the lights are",
  "Claim: whenever the daemon is running and all is quiet, the broker shows the level of every light, also of those that were switched while the daemon was not running. It is false: the daemon never asks for the state of a group, so what the broker has kept from before stays. True: lights for which there was no command while the daemon was away, or has been one since, are shown as they are, over any number of stops and starts.",
  "For all histories of messages, commands of other units, confirmations, stops and starts at any moment, in which no two commands for one light cross while the daemon is running; all labels, Unicode tables and JSON readers.",
  "What is shown depends on all that happened while the daemon was away and at which moment it was stopped; a test has one such history.",
  "cbus/daemon/cmqttd.py:123-128",
  "cbus/protocol/pciprotocol.py:81-92",
  "cbus/daemon/cmqttd.py:178-228")
p("On a serial line an unreadable line costs at most 512 characters of reports",
  "When a line that cannot be read is received through a serial port, the daemon stays connected, and but for those in the first 512 characters behind it the messages for all reports of the network are published, whatever the pieces of no more than 256 characters in which they arrive.",
  "every unreadable line, every sequence of reports, every chopping into pieces of at most 256 characters, every time and state",
  "how a serial line cuts reports into pieces depends on timing; no test goes on after a line that raises",
  "cbus/protocol/buffered_protocol.py::BufferedProtocol.data_received",
  "cbus/protocol/cbus_protocol.py::CBusProtocol.handle_data",
  "cbus/daemon/cmqttd.py:424-469")
p("What a daemon is made to do is bounded by what it receives",
  "Whatever a connected daemon receives from the network interface, valid or not and in whatever pieces: each message it publishes is paid for by two of the received characters and each line it writes by four, no character counting twice; and what it writes is at most 37 characters for four received.",
  "every sequence of received characters, every chopping, every time and state of a connected daemon",
  "a bound over all inputs, including malformed and endless ones, cannot be tested",
  "cbus/protocol/buffered_protocol.py::BufferedProtocol.data_received",
  "cbus/protocol/pciprotocol.py::PCIProtocol.handle_cbus_packet",
  "cbus/daemon/cmqttd.py::CBusHandler")
p("A report from which characters are lost is not taken for another",
  "When consecutive characters are lost from the line of a valid message of the network interface (as on a serial line, or when the receive buffer overflows), what is left of the line is never decoded as a message.",
  "every valid line, every run of lost characters, every continuation",
  "the number of ways to lose characters is unbounded, and whether the remainder passes depends on the sum of what is lost",
  "cbus/common.py::validate_cbus_checksum",
  "cbus/protocol/packet.py::decode_packet")
p("A packet that was received can be sent on",
  "Every message that decode_packet returns can be written with encode_packet, and what is written is read as the same packet, so that a program can keep or pass on what it receives. Lines with lighting commands and nothing else are written character by character as they were received.",
  "every buffer and every message read from it, in both directions, both checksum and strict settings, everything that may follow",
  "Tests compare a few packets that were built by hand; the claim is about every packet that any bytes can be read as.",
  "cbus/protocol/packet.py:43-257",
  "cbus/protocol/base_packet.py:53-70",
  "cbus/protocol/pm_packet.py:99-136",
  "cbus/protocol/pp_packet.py:83-174",
  "cbus/protocol/dm_packet.py:43-77")
p("What is dropped from a message is warned of",
  "When a point to multipoint message is decoded, there is no warning exactly if the data of the application are complete, known commands from the first byte to the last and each of them is reported. Every command that is skipped, every place where the rest of the data is given up and every status request that is cut off has exactly one warning, of the right kind and in order. A checksum or a confirmation code that is wrong and tolerated is warned of as well, and nothing else ever is.",
  "for all five applications and all data; for all buffers in both directions, with and without checksums, strict or not",
  "The warnings depend on all of the data and on the position at which decoding stops; a unit test looks at single malformed messages, never at the claim that no part of any message disappears silently.",
  "cbus/protocol/application/lighting.py:62-105,148-168",
  "cbus/protocol/application/clock.py:52-95,130-177,218-233",
  "cbus/protocol/application/temperature.py:55-101",
  "cbus/protocol/application/enable.py:45-89",
  "cbus/protocol/application/status_request.py:49-86",
  "cbus/protocol/packet.py:158-198")
p("Documents are saved under the names that their addresses spell",
  "fetch_protocol_docs saves every document of the index page under the name that the last part of its path spells by RFC 3986, section 2.1: a percent sign with two hexadecimal digits, of either case, stands for the octet of that value, every other ASCII character for itself, and the octets are decoded together; a percent sign without two digits and characters that are not ASCII stay as they are.",
  "for all names, all pages whose links can be read, all directories and earlier contents, all servers that answer",
  "Every mixture of escaped and plain characters, valid and malformed escapes must be decoded; tests could cover a few names only, and the repository has none for this tool.",
  "cbus/tools/fetch_protocol_docs.py:55-86,88-111")
p("Commands that are sent at once all reach a simulated PCI",
  "Whatever broadcast calls a client makes after connecting to a simulated PCI, the simulated PCI carries all of them out in order, whether what the client has written arrives in one piece or in many.",
  "every sequence of lighting and clock calls, every chopping, every state of the client and of the simulated PCI",
  "how many commands are in one piece depends on how fast they are issued and on the operating system; the tests hand over one line at a time",
  "cbus/protocol/buffered_protocol.py:63-86",
  "cbus/protocol/pciserverprotocol.py:479-489",
  "cbus/protocol/pciprotocol.py:328-369,433-560")
p("A dump is laid out as the option asks",
  "dump_labels -p N with a positive N writes every item and every member on a line of its own, with N spaces before it for each array or object that it is in, and the closing brackets as far in as the lines with the opening ones; without the option (and with 0) it writes one line.",
  "every project file that can be dumped, every positive number of spaces",
  "the layout depends on how deep and how long the lists of a project are; the repository has no test of this tool",
  "cbus/toolkit/dump_labels.py:39-59",
  "cbus/toolkit/dump_labels.py:113-117")
p("The text of a packet tells what was received",
  "The text of a packet, which cbus_decode_packet prints and which the log has for every packet that arrives, tells what the packet is: two packets that differ in their kind, application, sender or commands (for reports and answers: in the unit or the commands; for parameters: in the parameter or the value; for confirmations: in the code or the success; for invalid ones: in the bytes) never have the same text.",
  "all pairs of packets that decode_packet returns for any bytes and any options, and all addresses in memory of the objects",
  "That two different values have different texts is a statement about all pairs of packets. It depends on where in the texts the numbers end, on the quotes and escapes of bytes, on zero seconds that are left out of a time, and on classes without a text of their own, which print their place in memory.",
  "cbus/protocol/pm_packet.py:55-61",
  "cbus/protocol/pp_packet.py:176-179",
  "cbus/protocol/dm_packet.py:79-82",
  "cbus/protocol/confirm_packet.py:51-53",
  "cbus/protocol/application/lighting.py:180-183",
  "cbus/protocol/application/clock.py:200-201",
  "cbus/tools/decode_packet.py:28-35",
  "cbus/protocol/cbus_protocol.py:76")
p("The log tells what was received",
  "A client and a simulated PCI log every packet that arrives and then one line that begins with 'recv: ' for each event handler that is called, in order. From these lines one can tell which events there were: which unit, group, duration, level, date, time, confirmation code. The line of the simulated PCI for a ramp has the brightness in it as a percentage.",
  "every packet that can be received, every state of the simulated PCI, whatever is random",
  "the texts of different events must differ for all addresses, durations, levels and times, and the number and order of the lines must follow the handlers for packets of any length; the tests read no log",
  "cbus/protocol/cbus_protocol.py:75-77",
  "cbus/protocol/pciprotocol.py:99-311",
  "cbus/protocol/pciserverprotocol.py:92-321")
p("What the simulated PCI holds back",
  "There is a limit to the number of packets that the simulated PCI keeps for later, whatever a client sends.",
  "every history of connection, pieces of data and calls of its methods, with or without exceptions",
  "The queue depends on the whole history; a test sends a handful of clock updates, which all have confirmation codes.",
  "cbus/protocol/pciserverprotocol.py:288-310",
  "cbus/protocol/pciserverprotocol.py:352-373")
p("The log tells all bytes that pass",
  "With the log at debug level one can tell from it, byte for byte and piece for piece, all that was received and all that was sent, by a client and by a simulated PCI; and logging it changes nothing.",
  "every history of pieces of data, every state of the connection, every packet that is sent",
  "A test looks at a line; whether two different histories ever leave the same lines, and whether something passes without a line, are questions about all histories.",
  "cbus/protocol/cbus_protocol.py:54-79",
  "cbus/protocol/buffered_protocol.py:63-112",
  "cbus/protocol/pciprotocol.py:328-369",
  "cbus/protocol/pciserverprotocol.py:355-373")
p("Two neighbouring characters that are changed are always noticed",
  "When two neighbouring characters of the digits of a valid message, or one of them, are changed into others (as by noise that is shorter than one character, or when they are exchanged) and these are no end of a line, or when a character is added to a report, the line is never decoded as a message; for reports of the PCI and for commands to it.",
  "every valid line, every position, all other characters, every continuation",
  "the checksum is a sum, for which a test of some exchanges says nothing about the others (those of two bytes are not noticed)",
  "cbus/common.py::validate_cbus_checksum",
  "cbus/protocol/packet.py::decode_packet")
p("Lights carry the names of the last start",
  "After the daemon has connected to the broker, a client that asks for the configuration of a group, at once or any time later, is told exactly one light and one binary sensor, named as in the project file that the daemon was last started with (or the generic name), whatever the broker had kept from earlier starts with other project files; configurations of other devices are left alone.",
  "every content of the broker before, all labels, every history afterwards of publications of others, connections, losses, messages and happenings on the C-Bus side, as long as nobody else leaves configurations there and no daemon with other labels connects",
  "what is seen depends on what earlier runs have left at the broker",
  "cbus/daemon/cmqttd.py::MqttClient.publish_all_lights",
  "cbus/daemon/cmqttd.py::MqttClient.on_connect")
p("The time on the network does not run backwards",
  "The times that the daemon tells the network, by its time signals and in answer to requests, are readings of the clock of the computer, in the order in which they are made, each told at most once and in the same step in which it is read, date and time in one message from one reading. So as long as the local time of the computer does not go back, no unit is told an earlier time after a later one.",
  "every history of connections, losses, data in arbitrary pieces (while connected), time signals, MQTT connections and messages, every clock whose readings are dates and times, every state of the client",
  "it is about all orders in which requests, signals and other messages can fall together, and about what is not sent: a reading that is kept and sent later",
  "cbus/protocol/pciprotocol.py::PCIProtocol.clock_datetime",
  "cbus/protocol/pciprotocol.py::PCIProtocol.timesync",
  "cbus/protocol/pciprotocol.py::PCIProtocol.on_clock_request",
  "cbus/protocol/application/clock.py::clock_update_sal")
p("A report is published when its last character arrives",
  "While reports from the network arrive over TCP, cut into pieces in any way that leaves room for an incomplete report in the buffer, the messages that have been sent to the broker are at any time exactly those of the reports whose last character has arrived: none is held back until something else is received, and none is sent before it is complete.",
  "all reports, all choppings into pieces with room for an incomplete line (see C110 for longer ones), every moment, every state of a connected daemon",
  "it is about every moment within every chopping of every stream; a test sees some",
  "cbus/protocol/buffered_protocol.py::BufferedProtocol._process_buffer",
  "cbus/protocol/packet.py::decode_packet",
  "cbus/daemon/cmqttd.py::CBusHandler.on_lighting_group_on")
p("Lights do not influence each other",
  "What the daemon does for one light does not depend on what happens to others. If messages for other lights (or on topics that are for no light) are taken out of any history of the daemon, wherever they stand and whatever they say, then the daemon still does the same for the light: the same commands in the same order, the same messages about it with the same content, and everything else it does (answers to clock requests, discovery messages, subscriptions, log) except the commands and messages about other lights; only the confirmation codes on the commands and the times it tells may differ. So messages for different lights may come in any order. In the other direction, what it publishes about a light depends only on what the reports on the network say of that light and on the unit each came from: two streams of reports that say the same of it, whatever else they say of other lights and however they are packed and cut into short pieces, give the same messages about it.",
  "for every group address, every history of the daemon and every history that comes from it by leaving out messages not for that address, every reading of the clock, every state with a valid next code; for every two streams of well formed reports in short pieces",
  "A test has a few lights and a few orders of messages; that no state leaks from one light to another in any history is a statement about pairs of histories.",
  "cbus/daemon/cmqttd.py::MqttClient.on_message",
  "cbus/daemon/cmqttd.py::CBusHandler.on_lighting_group_on",
  "cbus/protocol/pciprotocol.py::PCIProtocol._send",
  "cbus/protocol/pciprotocol.py::PCIProtocol.handle_cbus_packet")
p("What is shown of a light has been announced",
  "Over every history of cmqttd from its start, whatever it publishes that is not a configuration is published on a topic that a configuration published before (and left at the broker) has named as the topic of a state; and no configuration is published that names a topic for commands before the daemon has subscribed to that topic. So a client that knows of a light through discovery never finds a state without a description, nor a light that does not listen. Without a connection to the broker nothing is published at all.",
  "every history of connections made and lost on both sides, bytes received, ticks of the clock and messages, in which messages come only after a connection to the broker; every position in all that is written and published; all labels",
  "It is about the order of everything published over histories of any length: a test looks at one connection and at the messages of one event.",
  "cbus/daemon/cmqttd.py::MqttClient.on_connect",
  "cbus/daemon/cmqttd.py::MqttClient.publish_all_lights",
  "cbus/daemon/cmqttd.py::MqttClient.on_message",
  "cbus/daemon/cmqttd.py::CBusHandler.on_lighting_group_on",
  "cbus/daemon/cmqttd.py::CBusHandler.on_lighting_group_off",
  "cbus/daemon/cmqttd.py::CBusHandler.on_lighting_group_ramp")
p("The password file changes nothing but the password",
  "What the file of --broker-auth contains, and whether one is given, has no effect on the start of cmqttd but for the user name and the password that the MQTT client is given: the same connections with the same TLS settings are made in the same order, the start fails with the same exception or the daemon runs with the same options and labels. With a file that cannot be decoded, nothing of it is used and no connection to the broker is made.",
  "all pairs of contents of the file (or none), all worlds (devices, hosts, files, brokers, certificates), all other options and project files, every encoding of the locale",
  "A statement about pairs of executions: tests compare single runs and cannot show that a secret has no influence elsewhere.",
  "cbus/daemon/cmqttd.py::_main",
  "cbus/daemon/cmqttd.py::read_auth")
p("A project file changes names only",
  "The labels that cmqttd takes from a project file have no effect but on names: two histories of the daemon that differ only in its labels lead, step for step, to the same states, the same exceptions, the same commands and the same messages in the same order; only the names in the configurations of lights and their binary sensors differ, and only for the lights that the two sets of labels name differently. To the start of the daemon a project file that can be read makes no other difference either. So a project file can be added, changed or left out without other effects on an installation.",
  "every pair of histories of connections, losses, data, ticks, MQTT connections and messages that differ only in labels, every state of the client, every start in every world",
  "A statement about pairs of executions of any length and all labels; tests look at single runs with few labels.",
  "cbus/daemon/cmqttd.py::MqttClient.publish_all_lights",
  "cbus/daemon/cmqttd.py::MqttClient.on_connect",
  "cbus/daemon/cmqttd.py::CBusHandler.__init__",
  "cbus/daemon/cmqttd.py::_main")
p("Keeping time does not disturb the lights",
  "The settings for the time on the network (--timesync, --no-clock), the time signals and the clock of the computer have no effect on anything else: two daemons in the same state with other settings and other clocks, whose histories are the same but for time signals at any moments, send the same other commands and the same messages in the same order; only confirmation codes may differ. Every command for a light and every message counts as something else.",
  "every pair of histories that differ only in time signals, all settings, all clocks whose readings are dates and times, every state of the client",
  "A statement about pairs of executions of any length; tests run one of them with one setting.",
  "cbus/protocol/pciprotocol.py::PCIProtocol.timesync",
  "cbus/protocol/pciprotocol.py::PCIProtocol.clock_datetime",
  "cbus/protocol/pciprotocol.py::PCIProtocol.connection_made",
  "cbus/daemon/cmqttd.py::CBusHandler.on_clock_request")
p("A damaged report costs only itself",
  "If in a stream of reports from the PCI, which arrives in short pieces, one character of any of the reports (not the end of its line) is changed into another one, and if there are other lines among them (with characters that are no digits, or with a wrong checksum), then the daemon publishes exactly the messages of the undamaged reports, in order, and nothing stays in its buffer.",
  "for all streams of lighting and other reports, all subsets of damaged ones, all positions and values of the changed characters, all ways of chopping the stream",
  "The number of places, values and neighbours of a changed character times the ways of chopping is endless; a test tries one bad line, and the harmful values are two out of 255 at one position.",
  "cbus/protocol/packet.py::decode_packet",
  "cbus/protocol/buffered_protocol.py::BufferedProtocol.data_received",
  "cbus/protocol/cbus_protocol.py::CBusProtocol.handle_data",
  "cbus/daemon/cmqttd.py::CBusHandler")
p("The next report of a light puts right what damage left wrong",
  "If reports from the network are damaged on the way (one character of a line is changed, not its end, nor its first character to `+` or `!`, for which see C171), or lost, or if there is noise between them, then of a light that no damaged or lost report is about the same is published as without damage; and once an undamaged report about a light has come, and none about it has been damaged or lost since, the broker keeps on the topics of the light and of its binary sensor what it would keep without damage.",
  "for all streams of reports, all subsets of damaged or lost ones, all positions and values of the changed characters, all ways of chopping either stream, all lights",
  "It compares two executions of any length, for every kind and place of damage; a test runs one execution with one bad line.",
  "cbus/protocol/packet.py::decode_packet",
  "cbus/protocol/buffered_protocol.py::BufferedProtocol.data_received",
  "cbus/protocol/pciprotocol.py::PCIProtocol.handle_cbus_packet",
  "cbus/daemon/cmqttd.py::CBusHandler",
  "cbus/daemon/cmqttd.py::MqttClient.lighting_group_on")
p("A serial line and a socket make a difference only after an exception",
  "Whatever the daemon receives, and in whatever pieces: if the protocol raises over none of the pieces then all that the daemon does is the same over a serial line and over TCP. Otherwise it is the same up to and including the first piece over which it raises; then the TCP connection is lost and nothing more is done, and over the serial line the pieces behind it are handled as if they came next. So all that is done over TCP is done over a serial line, in the same order.",
  "for all states of a connected client, all pieces, all clocks",
  "It compares two executions of any length with two transports; a test has one of them, with a few pieces.",
  "cbus/protocol/buffered_protocol.py::BufferedProtocol.data_received",
  "cbus/protocol/pciprotocol.py::PCIProtocol.connection_lost",
  "cbus/daemon/cmqttd.py::_main")
p("A report that comes more than once does no harm",
  "If reports from the network come again, one by one or some in a row (as in 1, 2, 3, 2, 3, 4), then in the end the broker keeps on all topics what it would keep if each had come once. And of a report that is sent twice either copy may be damaged or lost (as in C172): the broker keeps what it would keep if it had been sent once and had come through.",
  "for all streams of reports, all repetitions, all ways of chopping either stream, all kinds and places of damage to a copy",
  "It compares two executions of any length; repetitions and damage combine in endlessly many ways.",
  "cbus/protocol/packet.py::decode_packet",
  "cbus/protocol/pciprotocol.py::PCIProtocol.handle_cbus_packet",
  "cbus/daemon/cmqttd.py::CBusHandler",
  "cbus/daemon/cmqttd.py::MqttClient.lighting_group_on")
p("A damaged command costs only itself",
  "To a simulated PCI with checksums on, a command of which one character before the CR is changed on the way is as if it had not come (but for its echo in basic mode), and whatever follows it is handled as usual.",
  "every command with a checksum and a confirmation code, every character of it and what it may become, every state of a connected simulated PCI with checksums on, every text that follows",
  "There are as many damaged commands as commands, places and characters, and what matters is also how everything behind them is treated; a test damages one command in one place.",
  "cbus/protocol/packet.py::decode_packet",
  "cbus/protocol/buffered_protocol.py::BufferedProtocol.data_received",
  "cbus/protocol/cbus_protocol.py::CBusProtocol.handle_data",
  "cbus/protocol/pciserverprotocol.py::PCIServerProtocol.handle_cbus_packet")
p("Commands that arrive are carried out whatever becomes of the others",
  "Of the commands that a client writes to a simulated PCI with checksums on, any may be lost on the way or damaged in one digit; all the others are carried out, in order, each is confirmed with its own code and no other is. Of up to twenty commands in a row the confirmations therefore tell exactly which were carried out.",
  "every sequence of lighting and clock calls, every choice of commands that are lost or damaged and of where and how (but for a CR or `?`), every division of what arrives into pieces of up to 209 characters, every state of client and simulated PCI with checksums on",
  "A test loses or damages a few chosen commands; that nothing of the damaged ones sticks to the others, in whatever pieces it all arrives, is a statement about all sequences, choices and divisions.",
  "cbus/protocol/pciprotocol.py::PCIProtocol._send",
  "cbus/protocol/packet.py::decode_packet",
  "cbus/protocol/buffered_protocol.py::BufferedProtocol.data_received",
  "cbus/protocol/pciserverprotocol.py::PCIServerProtocol.handle_cbus_packet")
p("The client is told of exactly those commands that were carried out",
  "A client calls for lights at a simulated PCI in smart mode with checksums on, and some of the commands are damaged in a digit or lost on the way. What comes back are the confirmations of the others and nothing else, and the client is told of these in order as successes. Of up to twenty calls it is told of one exactly if that was carried out.",
  "every sequence of calls for lights, every choice of commands that are lost or damaged and of where and how (but for a CR or `?`), every division of what goes there into pieces of up to 209 and of what comes back into pieces of up to 254 characters, every state of the client with the connection up",
  "It joins two programs across a line that loses some of what passes; tests try a few losses and one division into pieces.",
  "cbus/protocol/pciprotocol.py::PCIProtocol._send",
  "cbus/protocol/pciprotocol.py::PCIProtocol.handle_cbus_packet",
  "cbus/protocol/pciserverprotocol.py::PCIServerProtocol.handle_cbus_packet",
  "cbus/protocol/pciserverprotocol.py::PCIServerProtocol.send_confirmation")
p("A set-up that is confirmed is in force",
  "The lines with which a client sets up the interface may be damaged in one character each or lost on the way to the simulated PCI, so long as one reset arrives. If the last command is confirmed, the interface is in smart mode with checksums on, as the client takes it to be; otherwise it is as after a reset.",
  "every state of a connected simulated PCI, all confirmation codes, every choice of lines that are lost or damaged and of where and how (but for a CR or `?`), every division of what arrives into pieces of up to 209 characters",
  "The set-up is tested as a whole; what is left of it when parts do not get through depends on the order and on the options that the parts themselves change.",
  "cbus/protocol/pciprotocol.py::PCIProtocol.pci_reset",
  "cbus/protocol/pciserverprotocol.py::PCIServerProtocol.handle_cbus_packet",
  "cbus/protocol/pciserverprotocol.py::PCIServerProtocol.on_reset",
  "cbus/protocol/packet.py::decode_packet")
p("A damaged confirmation costs only itself",
  "Of the confirmations and reports that a PCI sends, any confirmations may arrive with other characters; the client is still told of all other confirmations and of all reports, in order.",
  "every sequence of reports and confirmations, every choice of damaged confirmations and of their characters, every division of what arrives into pieces that leave room for a line, every state of the client with the connection up",
  "Confirmations have no end of line and no checksum, so that what one damaged character does depends on all that follows; tests try one sequence.",
  "cbus/protocol/packet.py::decode_packet",
  "cbus/protocol/pciprotocol.py::PCIProtocol.handle_cbus_packet",
  "cbus/protocol/buffered_protocol.py::BufferedProtocol.data_received")
p("Confirmations and notifications change nothing that cmqttd does",
  "Whatever confirmations, refusals and notifications the PCI sends among its reports, cmqttd writes and publishes the same as if it had sent the reports alone, and is left in the same state: it waits for no confirmation and repeats no command.",
  "every sequence of reports, confirmations of both kinds and both notifications, every division of what arrives into pieces that leave room for a line, every state of the daemon with the connection up",
  "It compares two executions, over all sequences and divisions; a test compares a few.",
  "cbus/protocol/pciprotocol.py::PCIProtocol.handle_cbus_packet",
  "cbus/protocol/pciprotocol.py::PCIProtocol.on_confirmation",
  "cbus/protocol/pciprotocol.py::PCIProtocol.on_pci_cannot_accept_data",
  "cbus/daemon/cmqttd.py::CBusHandler")
out = os.path.join(os.path.dirname(os.path.dirname(os.path.abspath(__file__))), 'properties.jsonl')
with open(out,'w') as f:
    for q in P: f.write(json.dumps(q)+"\n")
print(len(P))
