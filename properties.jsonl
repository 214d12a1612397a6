{"id": "C01", "title": "Variable byte integers round-trip", "statement": "Every length or subscription identifier from 0 to 268,435,455 is written as one to four bytes, exactly as many as the length function predicts, and reading those bytes back, whatever bytes follow, returns the same number and consumes exactly those bytes. A larger value is refused with an overflow error and is never truncated.", "quantifier": "all natural numbers, all trailing byte strings, both the buffered and the streaming reader/writer", "why_tests_cant": "2^28 accepted values and infinitely many refused ones times every possible continuation; tests sample a handful of boundaries", "anchors": ["mqrstt/src/packets/primitive/variable_integer.rs: write_variable_integer, read_variable_integer, read_async_variable_integer, variable_integer_len"]}
{"id": "C02", "title": "Variable byte integer decoding is bounded and faithful", "statement": "Whatever bytes arrive, decoding a variable byte integer looks at no more than four bytes, yields the base-128 little-endian value of the bytes it consumed (so never more than 268,435,455), reports a malformed packet exactly when four bytes all carry the continuation bit, and otherwise only fails because bytes are missing.", "quantifier": "all byte strings", "why_tests_cant": "the input space is every byte string; fuzzing cannot show the absence of an accepted malformed prefix", "anchors": ["mqrstt/src/packets/primitive/variable_integer.rs: read_fixed_header_rem_len, read_variable_integer"]}
{"id": "C03", "title": "A packet too large for MQTT is refused, not corrupted", "statement": "Writing a packet whose body is longer than 268,435,455 bytes fails with an overflow error; the writer never emits a remaining-length field that differs from the body length it announces.", "quantifier": "all packets of every type, both writers", "why_tests_cant": "needs packets of more than 256 MB and every packet shape", "anchors": ["mqrstt/src/packets/mod.rs: Packet::write, Packet::async_write"]}
{"id": "C04", "title": "Primitive values round-trip", "statement": "Every 8/16/32-bit integer, boolean, QoS value, UTF-8 string of at most 65,535 bytes and binary value of at most 65,535 bytes is read back unchanged from what was written, with any bytes following, and the reader stops exactly at the end of the value. Nothing else is accepted: whatever a reader accepts is exactly what the writer makes of the value returned, and text is accepted exactly when it is the UTF-8 encoding of Unicode characters.", "quantifier": "all values of each type, all trailing byte strings, buffered and streaming readers", "why_tests_cant": "all strings up to 64 KiB and all continuations", "anchors": ["mqrstt/src/packets/mqtt_trait/primitive_impl.rs", "mqrstt/src/packets/primitive/qos.rs"]}
{"id": "C05", "title": "A length prefix never lies", "statement": "Every string or binary value the writer accepts is preceded by its true length, so that the peer can find where it ends.", "quantifier": "all strings and binary values of any length", "why_tests_cant": "the failing inputs are longer than 65,535 bytes and sit in fields that no validation covers", "anchors": ["mqrstt/src/packets/mqtt_trait/primitive_impl.rs: MqttWrite for &str, MqttWrite for Vec<u8>"]}
{"id": "C06", "title": "First byte classification", "statement": "A first byte is accepted exactly when it is one of the first bytes MQTT v5 allows (type 1-15 with the mandated flag bits, any flags for PUBLISH) and is classified as that type; every packet the client writes starts with a byte that classifies back to the packet's own type, and for PUBLISH carries its DUP, QoS and RETAIN values.", "quantifier": "all 256 first bytes and all packets", "why_tests_cant": "the packet space is infinite; tests check a few packets", "anchors": ["mqrstt/src/packets/mod.rs: PacketType::from_first_byte, Packet::write, Packet::async_write"]}
{"id": "C07", "title": "Reason codes", "statement": "For each packet type the set of accepted reason code bytes is exactly a fixed table from the MQTT v5 specification, and reading and writing a reason code are inverse to each other.", "quantifier": "all 256 byte values for each of the nine packet types carrying reason codes", "why_tests_cant": "tests exercise single codes; the claim is about the complete table in both directions", "anchors": ["mqrstt/src/packets/macros/reason_code_macros.rs", "mqrstt/src/packets/*/reason_code.rs"]}
{"id": "C08", "title": "Buffered codec round-trip", "statement": "Every well-formed packet written by the buffered writer (used by the smol network) is read back by the buffered reader as the same packet, leaving exactly the bytes that followed it.", "quantifier": "all packets of all fifteen types with all combinations of fields and properties, all trailing bytes", "why_tests_cant": "the packet space is infinite: 27 property kinds, lists of unbounded length, all string contents", "anchors": ["mqrstt/src/packets/mod.rs: Packet::write, Packet::read", "mqrstt/src/packets/*/mod.rs: PacketRead::read, PacketWrite::write"]}
{"id": "C09", "title": "Streaming codec round-trip", "statement": "Every well-formed packet written by the streaming writer (used by the tokio network) is read back by the streaming reader as the same packet, consuming exactly its own bytes.", "quantifier": "all packets of all fifteen types with all combinations of fields and properties, all trailing bytes", "why_tests_cant": "as C08", "anchors": ["mqrstt/src/packets/mod.rs: Packet::async_write, Packet::async_read", "mqrstt/src/packets/*/mod.rs: PacketAsyncRead::async_read, PacketAsyncWrite::async_write"]}
{"id": "C10", "title": "The two codecs are interchangeable", "statement": "A packet written by the streaming writer is read back unchanged by the buffered reader and the other way round, so that a smol peer and a tokio peer understand each other.", "quantifier": "all well-formed packets and all trailing bytes", "why_tests_cant": "two separately hand-written codecs; agreement must hold on every packet", "anchors": ["mqrstt/src/packets/mod.rs: Packet::write, Packet::async_write, Packet::read, Packet::async_read"]}
{"id": "C11", "title": "Announced sizes are true", "statement": "The remaining-length field of every written packet equals the number of body bytes that follow it, the property-length field equals the number of property bytes that follow it, and the byte count reported by the streaming writer is the number of bytes written.", "quantifier": "all packets, both writers", "why_tests_cant": "each field combination contributes to the length separately", "anchors": ["mqrstt/src/packets/mod.rs: Packet::wire_len", "mqrstt/src/packets/macros/properties_macros.rs: properties_wire_length, properties_write"]}
{"id": "C12", "title": "A frame is isolated from its neighbours (buffered)", "statement": "The buffered reader's result for a packet depends only on the bytes of that packet's own frame and on nothing after it, and whether it succeeds or reports a malformed packet it removes exactly that frame from the buffer.", "quantifier": "all buffers, all following bytes", "why_tests_cant": "quantifies over arbitrary, also malformed, frames and arbitrary neighbours", "anchors": ["mqrstt/src/packets/mod.rs: Packet::read", "mqrstt/src/smol/stream.rs: parse_message"]}
{"id": "C13", "title": "A frame is isolated from its neighbours (streaming)", "statement": "When the streaming reader returns a packet it has consumed exactly the bytes of that packet's frame, so the next read starts at the next packet.", "quantifier": "all byte streams a server could send, including malformed ones", "why_tests_cant": "the failing streams are malformed or use legal short forms; a sample cannot establish the claim for the rest", "anchors": ["mqrstt/src/packets/mod.rs: Packet::async_read", "mqrstt/src/packets/macros/properties_macros.rs: async_read"]}
{"id": "C14", "title": "Incomplete frames are recognised", "statement": "Given only a strict prefix of a packet's bytes, the buffered reader reports how many more bytes it needs, at least one and never more than are actually missing, consumes nothing and returns no packet; a packet that can be decoded from a buffer is decoded identically when more bytes have arrived.", "quantifier": "all packets, all cut points, all buffers", "why_tests_cant": "every cut point of every packet", "anchors": ["mqrstt/src/packets/mod.rs: Packet::read", "mqrstt/src/packets/primitive/fixed_header.rs: read_fixed_header"]}
{"id": "C15", "title": "Bytes from the network never crash the decoder", "statement": "Whatever bytes the server sends, decoding ends with a packet, an error or a request for more bytes, never with a panic.", "quantifier": "all byte strings, both readers", "why_tests_cant": "panic freedom is a statement about every input", "anchors": ["mqrstt/src/packets/mod.rs: Packet::read, Packet::async_read", "mqrstt/src/packets/connect/mod.rs: Connect::read", "mqrstt/src/packets/connect/connect_properties.rs: read"]}
{"id": "C16", "title": "Properties are policed", "statement": "A packet carrying a property that does not belong to its type, an unknown property identifier, or the same single-valued property twice is rejected with an error; a packet that is accepted contains each single-valued property at most once, and its decoded properties are exactly the ones on the wire.", "quantifier": "all property sections of all packet types", "why_tests_cant": "all combinations and orders of 27 properties", "anchors": ["mqrstt/src/packets/macros/properties_macros.rs", "mqrstt/src/packets/*/properties.rs"]}
{"id": "C17", "title": "Subscription options round-trip", "statement": "Every combination of maximum QoS, no-local, retain-as-published and retain-handling is encoded into one byte with the two reserved bits clear and decoded to the same combination; the values 3 of QoS and of retain handling are rejected.", "quantifier": "all subscription options, all 256 option bytes", "why_tests_cant": "the claim covers the full table in both directions", "anchors": ["mqrstt/src/packets/subscribe/mod.rs: SubscriptionOptions, RetainHandling"]}
{"id": "C18", "title": "CONNECT says what the user configured", "statement": "The CONNECT packet sent for a set of connect options carries exactly the configured client id, clean-start flag, keep-alive seconds, user name, password, last will and connect properties, and a server that decodes it sees flags consistent with the fields that are present.", "quantifier": "all connect options", "why_tests_cant": "all combinations of optional fields and all keep-alive durations", "anchors": ["mqrstt/src/connect_options.rs: create_connect_from_options", "mqrstt/src/packets/connect/mod.rs", "mqrstt/src/packets/connect/connect_flags.rs"]}
{"id": "C19", "title": "The configured maximum packet size is respected", "statement": "A publish, subscribe or unsubscribe call succeeds only if the packet it would send does not exceed the configured maximum packet size, and a packet that fits is not rejected for its size.", "quantifier": "all topics, payloads, properties and limits", "why_tests_cant": "the boundary depends on every field length", "anchors": ["mqrstt/src/client.rs", "mqrstt/src/packets/publish/mod.rs: validate", "mqrstt/src/packets/subscribe/mod.rs: validate", "mqrstt/src/packets/unsubscribe/mod.rs: validate"]}
{"id": "C20", "title": "Packet identifiers in flight are unique", "statement": "At no time do two unfinished operations (publishes of QoS 1 or 2, subscribes, unsubscribes, from any clone of the client, queued, sent or awaiting PUBCOMP) carry the same packet identifier, and no identifier in use is available for a new operation.", "quantifier": "all interleavings of client calls, network events, acknowledgements, failures and reconnects, for any number of clients", "why_tests_cant": "all histories and schedules", "anchors": ["mqrstt/src/available_packet_ids.rs", "mqrstt/src/client.rs", "mqrstt/src/state.rs", "mqrstt/src/state_handler.rs"]}
{"id": "C21", "title": "Packet identifiers are valid and the pool never overflows", "statement": "Every identifier handed out lies between 1 and the configured send maximum, and returning identifiers never overruns the pool, so the internal 'unreachable' abort is never taken.", "quantifier": "all histories", "why_tests_cant": "the abort would need a rare double release; absence is a statement about all histories", "anchors": ["mqrstt/src/available_packet_ids.rs: mark_available"]}
{"id": "C22", "title": "Completed operations give their identifier back", "statement": "When a QoS 1 publish is acknowledged, a QoS 2 publish completed, a subscribe or unsubscribe acknowledged, exactly that operation's identifier becomes available again, exactly once; in histories without failed writes, failed validation, dropped calls, negative PUBREC or session loss, no identifier is ever missing.", "quantifier": "all histories", "why_tests_cant": "conservation has to hold after every prefix of every history", "anchors": ["mqrstt/src/state_handler.rs", "mqrstt/src/available_packet_ids.rs"]}
{"id": "C23", "title": "No identifier is ever lost", "statement": "Whatever happens, an operation that is finished (completed, refused, rejected locally or discarded with its session) eventually has its identifier returned, so the client cannot run out of identifiers.", "quantifier": "all histories including negative acknowledgements, failed validation, failed writes and session loss", "why_tests_cant": "leaks show only after up to 65,535 operations", "anchors": ["mqrstt/src/state_handler.rs: handle_incoming_pubrec", "mqrstt/src/state.rs: reset", "mqrstt/src/client.rs: publish", "mqrstt/src/tokio/network.rs: tokio_select"]}
{"id": "C24", "title": "Send window", "statement": "The number of publishes with QoS 1 or 2 that have been sent and not completed never exceeds the configured send maximum.", "quantifier": "all histories and schedules", "why_tests_cant": "all interleavings of many clients", "anchors": ["mqrstt/src/available_packet_ids.rs: new", "mqrstt/src/state.rs"]}
{"id": "C25", "title": "Unacknowledged publishes are kept", "statement": "A QoS 1 or 2 publish that was written to the connection and recorded stays stored, unchanged, until a PUBACK or PUBREC for its identifier arrives or a connection without the old session is made; nothing else removes or alters it.", "quantifier": "all histories after the publish", "why_tests_cant": "all histories of arbitrary other traffic", "anchors": ["mqrstt/src/state.rs", "mqrstt/src/state_handler.rs"]}
{"id": "C26", "title": "Session resumption retransmits exactly what is outstanding, in order", "statement": "On connecting with clean start off to a server that still has the session, the client re-sends exactly the unacknowledged publishes, in the order in which they were first sent, with only the DUP flag changed, followed by one PUBREL for every QoS 2 publish that got PUBREC but no PUBCOMP; nothing else.", "quantifier": "all histories before the reconnect", "why_tests_cant": "all histories; ordering bugs show only for specific acknowledgement orders", "anchors": ["mqrstt/src/state.rs: reset", "mqrstt/src/state_handler.rs: handle_incoming_connack"]}
{"id": "C27", "title": "A fresh session starts clean", "statement": "On connecting with clean start on or without a stored session, nothing is retransmitted, the client forgets all outstanding operations, and the identifiers of outstanding publishes, subscribes and unsubscribes become available again.", "quantifier": "all histories before the reconnect", "why_tests_cant": "all histories", "anchors": ["mqrstt/src/state.rs: reset", "mqrstt/src/state_handler.rs: handle_incoming_connack"]}
{"id": "C28", "title": "QoS 2 sender handshake", "statement": "A PUBREL for an identifier is sent only after a PUBREC accepting that identifier's publish, a publish is never retransmitted after it was accepted by PUBREC, and only the PUBCOMP for it releases the identifier.", "quantifier": "all histories", "why_tests_cant": "all interleavings of several QoS 2 exchanges with reconnects", "anchors": ["mqrstt/src/state_handler.rs: handle_incoming_pubrec, handle_incoming_pubcomp"]}
{"id": "C29", "title": "Incoming QoS 0 and QoS 1 messages", "statement": "Every incoming QoS 0 message is given to the user's handler and not answered; every incoming QoS 1 message is given to the handler and answered by exactly one PUBACK with its identifier; neither changes any session state.", "quantifier": "all messages in all states", "why_tests_cant": "all states and messages", "anchors": ["mqrstt/src/state_handler.rs: handle_incoming_publish"]}
{"id": "C30", "title": "Incoming QoS 2 messages are not delivered twice", "statement": "Between two PUBRELs for an identifier the user's handler gets at most one QoS 2 message with that identifier on a connection, however often the server repeats it, and a message repeated with DUP set after a reconnect is not given to the handler a second time; each copy is answered by PUBREC.", "quantifier": "all sequences of incoming packets and reconnects", "why_tests_cant": "all retransmission patterns", "anchors": ["mqrstt/src/state_handler.rs: handle_incoming_publish, handle_incoming_pubrel", "mqrstt/src/state.rs: incoming_pub"]}
{"id": "C31", "title": "Incoming QoS 2 messages are not lost", "statement": "A QoS 2 message that the client acknowledges with PUBREC has been given to the user's handler at least once.", "quantifier": "all sequences of incoming packets and reconnects", "why_tests_cant": "the loss needs the first transmission to be lost and the retransmission to carry DUP", "anchors": ["mqrstt/src/state_handler.rs: handle_incoming_publish"]}
{"id": "C32", "title": "Unsolicited acknowledgements are errors without effect", "statement": "A PUBACK, PUBREC, PUBCOMP, SUBACK or UNSUBACK whose identifier does not belong to an outstanding operation of the matching kind is reported as an error, changes no stored operation, releases no identifier, sends nothing and does not reach the handler.", "quantifier": "all states, identifiers and acknowledgement types", "why_tests_cant": "all states times all identifiers", "anchors": ["mqrstt/src/state_handler.rs"]}
{"id": "C33", "title": "Unexpected packets are errors", "statement": "A CONNECT, CONNACK, SUBSCRIBE, UNSUBSCRIBE, PINGREQ or AUTH packet arriving on an established connection ends the connection with an error naming its type, without touching session state or reaching the handler.", "quantifier": "all packets in all states", "why_tests_cant": "all states", "anchors": ["mqrstt/src/state_handler.rs: handle_incoming_packet"]}
{"id": "C34", "title": "Server packets never crash the client", "statement": "No packet sent by the server and no packet the client sends makes the client panic.", "quantifier": "all histories and all packet identifiers 0..65535 in server packets, all send/receive maxima", "why_tests_cant": "needs particular identifier values relative to configured maxima", "anchors": ["mqrstt/src/state.rs: add_outgoing_pub, remove_outgoing_pub", "mqrstt/src/lib.rs: NetworkBuilder"]}
{"id": "C35", "title": "PUBREL is always answered", "statement": "Every incoming PUBREL is answered by exactly one PUBCOMP with the same identifier, known or not, and makes the identifier usable for a new incoming message.", "quantifier": "all states and identifiers", "why_tests_cant": "all states", "anchors": ["mqrstt/src/state_handler.rs: handle_incoming_pubrel"]}
{"id": "C36", "title": "run needs connect and ends the connection", "statement": "Running without a prior successful connect reports that there is no network; whenever run returns, for whatever reason, the connection is dropped and a further run without connect reports that there is no network. The session (outstanding operations) survives the end of run.", "quantifier": "all histories of connect and run with all ways of ending, tokio and smol", "why_tests_cant": "all exit paths", "anchors": ["mqrstt/src/tokio/network.rs: run", "mqrstt/src/smol/network.rs: run"]}
{"id": "C37", "title": "The reported end of a run is truthful", "statement": "run reports an incoming disconnect exactly when the last packet read was a DISCONNECT, which the handler has seen; an outgoing disconnect exactly when the user's DISCONNECT has been written; a keep-alive timeout exactly when a DISCONNECT with that reason has been written by the timer.", "quantifier": "all sequences of network events", "why_tests_cant": "all event orders", "anchors": ["mqrstt/src/tokio/network.rs: tokio_select", "mqrstt/src/smol/network.rs: smol_select"]}
{"id": "C38", "title": "Handler before reply, in arrival order", "statement": "The handler sees the accepted packets exactly once each and in arrival order, and it has seen a message before the acknowledgement for that message is written to the connection.", "quantifier": "all sequences of network events, also when writes fail", "why_tests_cant": "at-least-once processing depends on the order for every event sequence and failure point", "anchors": ["mqrstt/src/tokio/network.rs: tokio_select", "mqrstt/src/smol/network.rs: smol_select"]}
{"id": "C39", "title": "First in, first out", "statement": "Packets submitted through the clients are written to the connection in the order in which they entered the queue, each at most once, and what is written is the packet that was submitted.", "quantifier": "all interleavings of clients and network events", "why_tests_cant": "all schedules", "anchors": ["mqrstt/src/lib.rs: CHANNEL_SIZE", "mqrstt/src/tokio/network.rs: tokio_select", "mqrstt/src/smol/network.rs: smol_select"]}
{"id": "C40", "title": "Pings only when due", "statement": "A PINGREQ is written only if keep-alive is on, no earlier PINGREQ is unanswered and at least the keep-alive interval has passed since the last recorded network activity of the client; with keep-alive zero none is ever written.", "quantifier": "all timed event sequences", "why_tests_cant": "all timings", "anchors": ["mqrstt/src/tokio/network.rs: tokio_select", "mqrstt/src/smol/network.rs: smol_select"]}
{"id": "C41", "title": "Keep-alive timeout only after an unanswered ping", "statement": "run reports a keep-alive timeout only if a PINGREQ was written at least the keep-alive interval earlier on this run and no PINGRESP has arrived since.", "quantifier": "all timed event sequences", "why_tests_cant": "all timings; the smol counter-example needs an hour of silence", "anchors": ["mqrstt/src/tokio/network.rs: tokio_select", "mqrstt/src/smol/network.rs: smol_select"]}
{"id": "C42", "title": "The client keeps the connection alive", "statement": "While keep-alive is on, once the interval has passed since the client last wrote something a ping (or the timeout after an unanswered one) is due immediately, whatever the server has been sending in the meantime.", "quantifier": "all timed event sequences", "why_tests_cant": "all traffic patterns", "anchors": ["mqrstt/src/tokio/network.rs: tokio_select", "mqrstt/src/smol/network.rs: smol_select"]}
{"id": "C43", "title": "Keep-alive follows the server's value", "statement": "After a successful connect the keep-alive interval in force is the one in the CONNACK if it has one and otherwise the configured one, and keep-alive is active exactly when that interval is not zero.", "quantifier": "all sequences of connects with all CONNACKs", "why_tests_cant": "needs several connects with different server values", "anchors": ["mqrstt/src/tokio/network.rs: connect", "mqrstt/src/smol/network.rs: connect"]}
{"id": "C44", "title": "smol: received bytes become the right packets under any fragmentation", "statement": "However the bytes from the server are split into reads, the packets the smol client processes are, in order, the packets encoded in the byte stream, without invention, repetition, reordering or omission in between.", "quantifier": "all byte streams and all ways of splitting them", "why_tests_cant": "exponentially many fragmentations", "anchors": ["mqrstt/src/smol/stream.rs: parse_message, read_bytes", "mqrstt/src/smol/network.rs: smol_select"]}
{"id": "C45", "title": "smol: a packet that has arrived is processed", "statement": "Once all bytes of a packet have been received it is processed without having to wait for further bytes from the server.", "quantifier": "all byte streams and all ways of splitting them", "why_tests_cant": "the stall needs two packets in one read", "anchors": ["mqrstt/src/smol/network.rs: smol_select", "mqrstt/src/smol/stream.rs: parse_message"]}
{"id": "C46", "title": "tokio: received bytes become the right packets under any schedule", "statement": "However the bytes from the server are split and whatever else the client does in between (sending, pinging), the packets the tokio client processes are, in order, the packets encoded in the byte stream.", "quantifier": "all byte streams, fragmentations and interleavings with other work of the loop", "why_tests_cant": "the failing schedule cancels a partially completed read", "anchors": ["mqrstt/src/tokio/network.rs: tokio_select", "mqrstt/src/tokio/stream.rs: read_packet"]}
{"id": "C47", "title": "A failed write does not lose a QoS 1 or 2 publish", "statement": "If writing a queued QoS 1 or 2 publish fails, the publish is still outstanding and is sent again after the next successful connect that resumes the session.", "quantifier": "all histories and failure points", "why_tests_cant": "needs a failure exactly between dequeue and record", "anchors": ["mqrstt/src/tokio/network.rs: tokio_select", "mqrstt/src/smol/network.rs: smol_select"]}
{"id": "C48", "title": "A refused connection changes nothing", "statement": "If the server answers CONNECT with a failure code or with another packet, connect returns an error carrying that code or packet, no session state changes, the handler is not called and no connection is established.", "quantifier": "all states and all first server packets", "why_tests_cant": "all states", "anchors": ["mqrstt/src/tokio/stream.rs: connect", "mqrstt/src/smol/stream.rs: connect"]}
{"id": "C49", "title": "The client sends what the user asked for", "statement": "A successful publish, subscribe or unsubscribe call puts exactly one packet with the given topic(s), payload, QoS, retain flag, options and properties into the queue, with DUP clear; a QoS 0 publish has no packet identifier and takes none from the pool, all others have one taken from the pool.", "quantifier": "all arguments and all states", "why_tests_cant": "all arguments", "anchors": ["mqrstt/src/client.rs"]}
{"id": "C50", "title": "A rejected call has no effect", "statement": "A publish, subscribe or unsubscribe call that returns an error has changed nothing: nothing is queued and no identifier is used up.", "quantifier": "all arguments and states", "why_tests_cant": "the leak is visible only after many failed calls", "anchors": ["mqrstt/src/client.rs", "mqrstt/src/packets/publish/mod.rs: validate"]}
{"id": "C51", "title": "smol: connecting works under any fragmentation", "statement": "However the bytes of the CONNACK are split into reads, connecting with smol succeeds with exactly that CONNACK.", "quantifier": "all CONNACKs and all ways of splitting them", "why_tests_cant": "needs particular split points", "anchors": ["mqrstt/src/smol/stream.rs: read, read_required_bytes"]}
{"id": "C52", "title": "Retransmission failures are reported", "statement": "If one of the packets to be retransmitted while connecting cannot be written, connect reports the error.", "quantifier": "all lists of retransmitted packets and failure points", "why_tests_cant": "needs a failure during reconnect", "anchors": ["mqrstt/src/tokio/stream.rs: write_packets", "mqrstt/src/smol/stream.rs: write_all"]}
{"id": "C53", "title": "Legal short forms are accepted", "statement": "Every acknowledgement, DISCONNECT and AUTH packet in a form that MQTT v5 allows (omitted reason code, omitted property length) is decoded to the packet it stands for.", "quantifier": "all identifiers and reason codes in all legal short forms, both readers", "why_tests_cant": "all combinations of form, type and reader", "anchors": ["mqrstt/src/packets/pubrec/mod.rs", "mqrstt/src/packets/pubcomp/mod.rs", "mqrstt/src/packets/puback/mod.rs", "mqrstt/src/packets/pubrel/mod.rs", "mqrstt/src/packets/disconnect/mod.rs", "mqrstt/src/packets/auth/mod.rs"]}
{"id": "C54", "title": "Subscription acknowledgements with all legal properties are accepted", "statement": "SUBACK and UNSUBACK packets carrying the properties MQTT v5 defines for them (reason string, user properties) are decoded.", "quantifier": "all property values", "why_tests_cant": "property table of each packet", "anchors": ["mqrstt/src/packets/suback/properties.rs", "mqrstt/src/packets/unsuback/properties.rs"]}
{"id": "C55", "title": "A QoS 2 receiver remembers across a resumed session", "statement": "After reconnecting to a stored session the client still knows which QoS 2 messages it has already received, so a copy is not delivered again even when it is not marked as a duplicate.", "quantifier": "all sequences of incoming packets and reconnects", "why_tests_cant": "needs a reconnect in the middle of a QoS 2 exchange", "anchors": ["mqrstt/src/state.rs: reset"]}
{"id": "C56", "title": "The conversation with the server follows the protocol", "statement": "On every connection the first packet written is CONNECT and it is written only by connect; nothing else is written before the server has accepted; while connecting only retransmissions follow; packets are written and read only on a connection, while run executes, and only packet types a client may send; after a DISCONNECT in either direction nothing more is written and run ends; after run has returned nothing is written or read before the next connect.", "quantifier": "all histories of both networks: calls, connects, failures, cancellations, server packets", "why_tests_cant": "an ordering property of complete histories", "anchors": ["mqrstt/src/tokio/network.rs: connect, run, tokio_select", "mqrstt/src/smol/network.rs: connect, run, smol_select", "mqrstt/src/tokio/stream.rs", "mqrstt/src/smol/stream.rs"]}
{"id": "C57", "title": "Queued packets are sent", "statement": "While run executes and the connection accepts what is written, every packet whose call returned Ok is written, in order; no state of the client or the session keeps the loop from sending the next packet in the queue.", "quantifier": "all histories, queue contents and times, both networks", "why_tests_cant": "progress from every reachable state", "anchors": ["mqrstt/src/tokio/network.rs: tokio_select", "mqrstt/src/smol/network.rs: smol_select", "mqrstt/src/state_handler.rs: handle_outgoing_packet"]}
{"id": "C58", "title": "Accepted calls are legal", "statement": "If a publish, subscribe, unsubscribe or disconnect call is accepted, its packet is one MQTT v5 lets a client send (lengths that fit their fields, at least one topic filter, no wildcards in topic names, subscription identifiers in range, ...) and it can be encoded.", "quantifier": "all arguments, options and histories", "why_tests_cant": "all arguments", "anchors": ["mqrstt/src/client.rs", "mqrstt/src/packets/publish/mod.rs: validate", "mqrstt/src/packets/subscribe/mod.rs: validate", "mqrstt/src/packets/unsubscribe/mod.rs: validate"]}
{"id": "C59", "title": "What the client writes is MQTT", "statement": "Whatever the buffered or the streaming writer makes of a well-formed packet has exactly the form MQTT v5 prescribes for that packet: first byte with the type and its flags, shortest body length, the fields in order, a property section whose properties are the packet's own and may occur there, the payload, and only the short forms the standard allows.", "quantifier": "all fifteen packet types, all values of their fields, both writers", "why_tests_cant": "round trips through the library's own reader cannot show conformance; the packets are infinitely many", "anchors": ["mqrstt/src/packets/mod.rs: write, async_write", "mqrstt/src/packets/mqtt_trait/primitive_impl.rs", "mqrstt/src/packets/macros/properties_macros.rs"]}
{"id": "C60", "title": "Every legal encoding is understood", "statement": "Whatever bytes MQTT v5 allows for a packet - properties in any order, any permitted short form - both readers return that packet, whatever follows, and leave what follows unread.", "quantifier": "all fifteen packet types, all legal encodings of each, all continuations", "why_tests_cant": "a server may order properties and use short forms as it likes; the library's own writer produces only one encoding of each packet", "anchors": ["mqrstt/src/packets/mod.rs: read, async_read", "mqrstt/src/packets/macros/properties_macros.rs", "mqrstt/src/packets/connack/properties.rs"]}
{"id": "C61", "title": "Accepted packets wait in a bounded queue", "statement": "At any time at most 100 packets have been accepted from clients and not yet taken by the network loop. While the network lives, a client call with a packet ready goes on at once if there are fewer than 100, and waits if there are 100: it is never refused and never overtaken for lack of space.", "quantifier": "all configurations, all histories of any number of client tasks and the network loop", "why_tests_cant": "a bound over all interleavings of client tasks and network loop", "anchors": ["mqrstt/src/lib.rs: CHANNEL_SIZE, NetworkBuilder", "mqrstt/src/client.rs: publish, subscribe, unsubscribe, disconnect"]}
{"id": "C62", "title": "Client calls inside an event handler return", "statement": "A handler may use a client (as the examples in the documentation do): a call made inside the handler returns, whatever has happened before.", "quantifier": "all configurations, all histories before the handler runs, all sequences of calls made in the handler", "why_tests_cant": "the handler that hangs needs a full queue or all identifiers in use when it runs; small tests never get there", "anchors": ["mqrstt/src/event_handlers.rs", "mqrstt/src/tokio/network.rs: run", "mqrstt/src/smol/network.rs: run", "mqrstt/src/client.rs"]}
{"id": "C63", "title": "Subscription arguments reach the server", "statement": "The packet sent for an accepted subscribe call asks the server for exactly the topic filters given, in the order given, each with the options given: a topic alone asks for QoS 0 and no options, a topic with a QoS for that QoS and no options, a topic with options for those options (bits of MQTT 3.8.3.1). Likewise for unsubscribe.", "quantifier": "all states of the client, all argument forms (single, list, with QoS, with options), all legal properties, both writers", "why_tests_cant": "all topic lists and all option combinations through conversion, packet and writer", "anchors": ["mqrstt/src/client.rs: subscribe, subscribe_with_properties, unsubscribe, unsubscribe_with_properties", "mqrstt/src/packets/subscribe/mod.rs: IntoSingleSubscription, SubscriptionOptions", "mqrstt/src/packets/unsubscribe/mod.rs: UnsubscribeTopics"]}
{"id": "C64", "title": "Every connection is requested with the configured options", "statement": "Every CONNECT the client writes, on the first and on every later connection of the same network and whatever the servers answered before, carries the client identifier, credentials, clean start flag, last will, keep-alive time and limits the user configured.", "quantifier": "all option settings, all histories of either network with any number of connections", "why_tests_cant": "later connections reuse state that earlier answers may have changed; tests connect once", "anchors": ["mqrstt/src/connect_options.rs: create_connect_from_options", "mqrstt/src/tokio/network.rs: connect", "mqrstt/src/smol/network.rs: connect"]}
{"id": "C65", "title": "Everything written obeys the sender's rules of QoS 1 and 2", "statement": "Whatever the client puts on the wire in whatever history is allowed to a sender at that point by MQTT v5 (4.3.2, 4.3.3, 4.4): a new QoS 1 or 2 publish carries an identifier that no publish in flight has and no DUP flag; a publish is sent again only while connecting to a resumed session, unchanged but for DUP, each at most once per connection and in the original order, and only if it has not been acknowledged; a PUBREL is sent only after an accepting PUBREC, once per PUBREC and once per resumed connection; a CONNECT is sent only outside run and with the configured clean start flag.", "quantifier": "all histories of either network: calls, schedules, packets from the server, losses of connection, reconnections", "why_tests_cant": "the rule depends on the whole history of what was written and read over all connections", "anchors": ["mqrstt/src/state_handler.rs: handle_outgoing_packet, handle_incoming_packet, handle_incoming_connack", "mqrstt/src/state.rs: reset", "mqrstt/src/tokio/network.rs: connect, run", "mqrstt/src/smol/network.rs: connect, run"]}
{"id": "C66", "title": "QoS 2 messages arrive exactly once, end to end", "statement": "With a server that follows MQTT v5, whatever connections are lost at whatever moment with whatever is under way on them: every QoS 2 message the client has sent is handed on by the server exactly once, unless it is still unacknowledged (then at most once), was refused by the server, or was given up with a session that the server or the client did not resume (then at most once). If the server keeps the session and the client does not ask for a clean start, nothing is given up. Assumes that the application calls run only after a successful connect.", "quantifier": "all histories of either network together with all behaviours of a server and all losses", "why_tests_cant": "needs a lossy network, a stateful server and reconnection at every possible moment", "anchors": ["mqrstt/src/state_handler.rs: handle_outgoing_packet, handle_incoming_packet, handle_incoming_connack", "mqrstt/src/state.rs: reset", "mqrstt/src/tokio/network.rs: connect, run", "mqrstt/src/smol/network.rs: connect, run"]}
{"id": "C67", "title": "QoS 1 messages arrive at least once, end to end", "statement": "Under the same conditions every QoS 1 message the client has sent is acknowledged, still unacknowledged, refused or given up with the session; every acknowledged one has been handed on by the server at least once, as often as the message was sent and acknowledged; nothing is handed on that was not sent.", "quantifier": "all histories of either network together with all behaviours of a server and all losses", "why_tests_cant": "needs a lossy network, a stateful server and reconnection at every possible moment", "anchors": ["mqrstt/src/state_handler.rs: handle_outgoing_packet, handle_incoming_packet, handle_incoming_connack", "mqrstt/src/state.rs: reset", "mqrstt/src/tokio/network.rs: connect, run", "mqrstt/src/smol/network.rs: connect, run"]}
{"id": "C68", "title": "A connection that was to be replaced is not used again", "statement": "After the client has asked for a new connection it does not go on with the connection before, also when connect fails.", "quantifier": "all histories of cancelled and ended runs and of failing and successful connects", "why_tests_cant": "needs a cancelled run and a connect that fails after the server has accepted it", "anchors": ["mqrstt/src/tokio/network.rs: connect, run", "mqrstt/src/smol/network.rs: connect, run"]}
{"id": "C69", "title": "Everything written has a reason", "statement": "Each packet the client puts on the wire is the CONNECT made from its options, was produced by an earlier client call, is a copy (marked DUP, otherwise unchanged) of a QoS 1 or 2 message written before, answers a packet read before (PUBACK and PUBREC a publish of that QoS and identifier, PUBCOMP a PUBREL, PUBREL an accepting PUBREC for a message written before), or belongs to the keep-alive (PINGREQ, DISCONNECT with keep alive timeout). It never invents a packet.", "quantifier": "all histories of either network: calls, schedules, packets from the server, losses of connection, reconnections", "why_tests_cant": "a statement about everything that may ever be written; needs every history", "anchors": ["mqrstt/src/tokio/network.rs: connect, run", "mqrstt/src/smol/network.rs: connect, run", "mqrstt/src/state_handler.rs: handle_incoming_packet, handle_outgoing_packet, handle_incoming_connack", "mqrstt/src/state.rs: reset", "mqrstt/src/client.rs: publish, subscribe, unsubscribe, disconnect"]}
{"id": "C70", "title": "Used legally, the client puts nothing but legal MQTT on the wire", "statement": "If the options make a legal CONNECT, the arguments of all calls are legal and the server uses non-zero identifiers, then in every history every packet written is a legal MQTT v5 client packet with a non-zero identifier where it has one, and the bytes made of it, by either of the two writers, are exactly that packet in MQTT's wire format.", "quantifier": "all options, all histories of either network with all calls, schedules, packets from the server, losses and reconnections", "why_tests_cant": "combines the arguments of calls, the session over several connections and the encoder, for all of them", "anchors": ["mqrstt/src/packets/mod.rs: write, async_write", "mqrstt/src/state_handler.rs: handle_incoming_packet, handle_incoming_connack", "mqrstt/src/connect_options.rs", "mqrstt/src/client.rs: publish, subscribe, unsubscribe, disconnect"]}
{"id": "C71", "title": "The server's Receive Maximum is kept", "statement": "The client never has more QoS 1 and 2 publishes unfinished on a connection than the server's CONNACK allows (4.9: PUBLISH, new or sent again, takes from the quota; PUBACK, PUBCOMP and a refusing PUBREC give back; a new connection starts anew).", "quantifier": "all histories of either network and all CONNACKs", "why_tests_cant": "depends on the whole history of the connection, including what is sent again after a reconnect", "anchors": ["mqrstt/src/tokio/network.rs: connect", "mqrstt/src/smol/network.rs: connect", "mqrstt/src/state_handler.rs: handle_incoming_connack", "mqrstt/src/available_packet_ids.rs"]}
{"id": "C72", "title": "The server's Maximum Packet Size is kept", "statement": "The client never sends a packet on a connection that is larger than the maximum packet size in that connection's CONNACK.", "quantifier": "all histories of either network and all CONNACKs", "why_tests_cant": "packets may be made on one connection and sent, or sent again, on another", "anchors": ["mqrstt/src/tokio/network.rs: connect", "mqrstt/src/smol/network.rs: connect", "mqrstt/src/client.rs: publish, subscribe, unsubscribe, disconnect", "mqrstt/src/packets/mqtt_trait/mod.rs: PacketValidation"]}
{"id": "C73", "title": "What the server does not support is not sent to it", "statement": "The client never sends what the CONNACK of the connection rules out: a QoS above Maximum QoS, retained messages, topic aliases above Topic Alias Maximum, subscriptions with wildcards, with identifiers or shared ones.", "quantifier": "all histories of either network and all CONNACKs", "why_tests_cant": "packets may be made on one connection and sent, or sent again, on another", "anchors": ["mqrstt/src/tokio/network.rs: connect", "mqrstt/src/smol/network.rs: connect", "mqrstt/src/client.rs: publish, subscribe"]}
{"id": "C74", "title": "The server can tell the topic of every message", "statement": "A PUBLISH without a topic is only sent on a connection on which its topic alias has been set before (3.3.2.3.4: mappings of aliases exist only within a connection).", "quantifier": "all histories of either network, including what is sent again after a reconnect", "why_tests_cant": "needs a message acknowledged, a message using its alias not acknowledged, and a resumed session", "anchors": ["mqrstt/src/state_handler.rs: handle_incoming_connack", "mqrstt/src/state.rs: reset", "mqrstt/src/tokio/network.rs: connect", "mqrstt/src/smol/network.rs: connect"]}
{"id": "C75", "title": "QoS 1 messages from the server arrive at least once", "statement": "Whatever happens to the connections, every QoS 1 message whose exchange the server sees finished has been given to the handler, as often as it was finished; the handler is given nothing that the server did not send.", "quantifier": "all histories of either network together with all behaviours of a server that follows the protocol and of a network that may lose connections with everything under way", "why_tests_cant": "needs the client, the network and the server together, over any number of lost connections", "anchors": ["mqrstt/src/state_handler.rs: handle_incoming_publish, handle_incoming_packet", "mqrstt/src/tokio/network.rs: run, connect", "mqrstt/src/smol/network.rs: run, connect"]}
{"id": "C76", "title": "QoS 2 messages from the server arrive exactly once", "statement": "Whatever happens to the connections, the handler is given every QoS 2 message that the server sends at most once, and every one whose exchange the server sees finished.", "quantifier": "all histories of either network together with all behaviours of a server that follows the protocol and of a network that may lose connections with everything under way", "why_tests_cant": "needs the client, the network and the server together, over any number of lost connections", "anchors": ["mqrstt/src/state_handler.rs: handle_incoming_publish, handle_incoming_packet", "mqrstt/src/state.rs: add_incoming_pub", "mqrstt/src/tokio/network.rs: run, connect", "mqrstt/src/smol/network.rs: run, connect"]}
{"id": "C77", "title": "Answers go out in the order of what they answer", "statement": "PUBACKs, PUBRECs, PUBRELs and PUBCOMPs are sent in the order in which the packets that they answer came in (MQTT v5, 4.6).", "quantifier": "all histories of either network", "why_tests_cant": "the order must hold for every interleaving of incoming packets, outgoing packets, pings, lost connections and calls", "anchors": ["mqrstt/src/state_handler.rs: handle_incoming_packet, handle_incoming_connack", "mqrstt/src/state.rs: reset", "mqrstt/src/tokio/network.rs: run, connect", "mqrstt/src/smol/network.rs: run, connect"]}
{"id": "C78", "title": "Messages arrive in the order in which they were sent", "statement": "A server that follows MQTT v5 and refuses no message hands the client's QoS 1 and 2 messages on in the order in which the client sent them, over any number of lost connections; only QoS 1 messages are repeated, and only ones handed on before.", "quantifier": "all histories of either network, all ways in which connections are lost, all behaviours of the server and the network between", "why_tests_cant": "the order depends on what was under way when each connection broke, on what the server had processed and on what was sent again", "anchors": ["mqrstt/src/state.rs: reset, add_outgoing_pub, make_pkid_available", "mqrstt/src/state_handler.rs: handle_incoming_connack, handle_outgoing_packet", "mqrstt/src/tokio/network.rs: connect, run", "mqrstt/src/smol/network.rs: connect, run"]}
{"id": "C79", "title": "The server reads what was written, wherever run is dropped", "statement": "On every connection the bytes a client writes are whole MQTT packets, one after the other, and a server reading them by the standard finds exactly the packets the client means to have written. This stays so when the future of run is dropped (in a select or a timeout) and run is called again on the same connection: no packet is cut, doubled or lost, and no message from the server stays unanswered.", "quantifier": "all histories of either network, all legal options, calls and server packets, all points at which the future of run is dropped, all numbers of bytes the connection has taken by then", "why_tests_cant": "the effect depends on the byte at which a write is interrupted and on what is written next", "anchors": ["mqrstt/src/tokio/network.rs: tokio_select, run", "mqrstt/src/tokio/stream.rs: write_packet", "mqrstt/src/smol/network.rs: smol_select, run", "mqrstt/src/smol/stream.rs: write, write_all"]}
{"id": "C80", "title": "The handlers that come with the crate do what they say", "statement": "The handler PingPong answers every received message in UTF-8 that says ping, in any mix of capital and small letters, with exactly one message pong of the same topic, QoS and retain flag, counts those that are not retained, ignores everything else and never panics; the handler PingResp counts the PINGRESPs it is given.", "quantifier": "all packets, payloads and client states", "why_tests_cant": "which texts are cut inside a character depends on the lengths of the encodings of all characters before", "anchors": ["mqrstt/src/event_handlers.rs: PingPong::handle, PingResp::handle"]}
{"id": "C81", "title": "No keep-alive interval makes run panic", "statement": "Whatever keep-alive interval is configured or demanded by the server, run never panics when it computes how long it may sleep.", "quantifier": "all configured intervals, all histories of either network, all clocks", "why_tests_cant": "the panic depends on where the clock ends and on the sum of an instant and an interval", "anchors": ["mqrstt/src/tokio/network.rs: tokio_select", "mqrstt/src/smol/network.rs: smol_select", "mqrstt/src/connect_options.rs: set_keep_alive_interval"]}
{"id": "C82", "title": "Giving up connect is no worse than its failing", "statement": "If the future of connect is dropped at any point, as by a timeout, the client and the network are left as a connect that returned an error would have left them: the connection in use and the bytes on it are untouched, before the server's answer nothing else has changed either, after it the session is the one after that CONNACK, and the next connect starts from there.", "quantifier": "all points at which connect waits, all histories of either network before and after, any number of dropped calls", "why_tests_cant": "the state after a dropped future depends on which of several suspension points it was dropped at and on the session at that moment", "anchors": ["mqrstt/src/tokio/network.rs: connect", "mqrstt/src/tokio/stream.rs: connect, write_packets", "mqrstt/src/smol/network.rs: connect", "mqrstt/src/smol/stream.rs: connect, write_all"]}
{"id": "C83", "title": "The text of a packet gives no content away", "statement": "The text that Display gives for a packet, which the log shows for every packet written, depends neither on payload, properties, last will and topic filters nor on the password.", "quantifier": "all packets, all pairs of packets that differ in these fields only", "why_tests_cant": "a test compares the text of a few packets with a constant; that no packet's text depends on a field is a statement about all pairs", "anchors": ["mqrstt/src/packets/mod.rs: impl Display for Packet", "mqrstt/src/tokio/stream.rs: write_packet, write_packets", "mqrstt/src/smol/stream.rs: write_packet, write_packets"]}
{"id": "C84", "title": "The text of a packet is one line", "statement": "The text that Display gives for a packet contains no line breaks, so that every packet is one line of the log and no packet's contents can imitate another line.", "quantifier": "all packets, all texts in them", "why_tests_cant": "the strings in a packet are arbitrary, and those of a received packet are chosen by others", "anchors": ["mqrstt/src/packets/mod.rs: impl Display for Packet", "mqrstt/src/smol/stream.rs: parse_message", "mqrstt/src/tokio/stream.rs: write_packet"]}
{"id": "C85", "title": "What was queued before the last client went is still sent", "statement": "After the last client has been dropped run goes on until everything the clients had put into the queue has been written, then it returns NoOutgoingPacketSender; it returns that error only then.", "quantifier": "all histories of both networks, all points at which the clients are dropped, all orders of reads and writes afterwards", "why_tests_cant": "what is in the queue, what is unacknowledged and what arrives next when the last client goes depends on the schedule", "anchors": ["mqrstt/src/tokio/network.rs: run, tokio_select", "mqrstt/src/smol/network.rs: run, smol_select", "mqrstt/src/available_packet_ids.rs: mark_available", "mqrstt/src/state_handler.rs: handle_incoming_puback"]}
{"id": "C86", "title": "Bytes kept until they are processed are bounded (smol)", "statement": "Of the bytes received the smol network keeps exactly those that have not been processed yet, and these are never more than one packet: however a server sends, memory use stays bounded and delivery does not fall behind.", "quantifier": "all histories of the smol network, all streams of packets and all ways they are split into reads", "why_tests_cant": "that the buffer grows without limit shows only after arbitrarily many reads, and depends on how the bytes are split into reads", "anchors": ["mqrstt/src/smol/network.rs: run, smol_select", "mqrstt/src/smol/stream.rs: Stream::read_bytes, parse_message"]}
{"id": "C87", "title": "An identifier is used again as late as possible", "statement": "When a call receives an identifier that was in use before, every identifier that was available while it was in use has been handed out in between; so a late or repeated acknowledgement does not meet a new operation as long as there are other identifiers to use.", "quantifier": "all histories of client calls, dropped calls, writes, received packets and reconnects, all pairs of identifiers, all points at which one is in use and the other available", "why_tests_cant": "depends on the order of all acknowledgements and calls in the history; a test sees one order", "anchors": ["mqrstt/src/available_packet_ids.rs: AvailablePacketIds", "mqrstt/src/client.rs: publish, subscribe, unsubscribe", "mqrstt/src/state_handler.rs: handle_incoming_packet, handle_incoming_connack"]}
{"id": "C88", "title": "Acknowledgements are recognised by what was sent", "statement": "While run executes, an acknowledgement that answers a packet written and still waiting for exactly this answer (PUBACK: QoS 1 publish, PUBREC: QoS 2 publish, PUBCOMP: publish accepted by PUBREC, SUBACK and UNSUBACK: request written on this connection) is passed to the handler; every other acknowledgement ends run with the error naming its kind and its identifier.", "quantifier": "all histories of either network, all acknowledgements, all identifiers", "why_tests_cant": "what is waiting for an answer depends on everything written and read before, over any number of connections", "anchors": ["mqrstt/src/state_handler.rs: handle_incoming_puback, handle_incoming_pubrec, handle_incoming_pubcomp, handle_incoming_suback, handle_incoming_unsuback", "mqrstt/src/state.rs: State::reset", "mqrstt/src/tokio/network.rs: tokio_select", "mqrstt/src/smol/network.rs: smol_select"]}
{"id": "C89", "title": "A server that has fallen silent is noticed", "statement": "While run executes with a keep-alive interval, a server that no longer answers is noticed: if nothing is received for two intervals, run ends with a keep-alive timeout as soon as it is scheduled, whatever the client sends in the meantime.", "quantifier": "all histories of either network in which nothing is received, all traffic of the client in the meantime, all times", "why_tests_cant": "depends on the times of all earlier writes; the failure needs a client that goes on sending for longer than any test waits", "anchors": ["mqrstt/src/tokio/network.rs: run, tokio_select", "mqrstt/src/smol/network.rs: run, smol_select"]}
{"id": "C90", "title": "Connecting again works after anything", "statement": "Whatever has happened before - errors, dropped runs, timeouts, refused connections, unfinished requests - as long as the network exists and run is not executing, connect succeeds when the server accepts the connection, and run can then be started.", "quantifier": "all histories of either network, all options, all CONNACKs that accept, all times", "why_tests_cant": "whether connect succeeds depends on the state left behind by everything before; a test tries one kind of failure", "anchors": ["mqrstt/src/tokio/network.rs: connect", "mqrstt/src/smol/network.rs: connect", "mqrstt/src/state_handler.rs: handle_incoming_connack", "mqrstt/src/state.rs: State::reset"]}
{"id": "C91", "title": "Memory is bounded whatever clients and server do", "statement": "While a network exists, what it and its clients keep between steps is bounded by the options alone: at most 100 packets wait to be sent, the messages kept for retransmission and the identifiers remembered for them, for subscribes and for unsubscribes are together with the free identifiers at most send maximum many, and of the QoS 2 messages of the server at most one entry per identifier is remembered; no history of calls, received packets, failures and reconnects makes it grow further.", "quantifier": "all options, all histories of client calls, dropped calls, arriving bytes, failures and reconnects, both networks", "why_tests_cant": "growth shows up only in long histories and with particular interleavings of calls, acknowledgements and reconnects", "anchors": ["mqrstt/src/state.rs: State", "mqrstt/src/available_packet_ids.rs: AvailablePacketIds", "mqrstt/src/lib.rs: NetworkBuilder", "mqrstt/src/state_handler.rs: handle_incoming_packet, handle_outgoing_packet, handle_incoming_connack"]}
{"id": "C92", "title": "A server that answers completes everything", "statement": "As long as a client and the network exist, from every point that can be reached the server can bring all unfinished operations to an end by answering them (PUBACK, PUBREC and PUBCOMP, SUBACK, UNSUBACK), and every order of the answers that are due does so: each is accepted and given to the handler, none fails, each brings the end one closer, and at the end no message, no subscribe and no unsubscribe is kept and all their identifiers can be used again.", "quantifier": "all options, all histories of client calls, dropped calls, writes, received packets, failures and reconnects, all orders of the answers", "why_tests_cant": "the histories before and the orders of the answers are unbounded; a session that is stuck for good shows only after particular ones", "anchors": ["mqrstt/src/state_handler.rs: handle_incoming_packet", "mqrstt/src/state.rs: State", "mqrstt/src/available_packet_ids.rs: mark_available"]}
{"id": "C93", "title": "Disconnecting loses nothing", "statement": "When run reports an outgoing disconnect, every publish, subscribe and unsubscribe that was accepted before the disconnect call has been written before the DISCONNECT, once and in order, and nothing accepted after it; what was accepted after it is kept and written on later connections, in order, without a gap. (Unless an earlier run failed, or was dropped while it wrote.)", "quantifier": "all histories of either network with any number of connections and clients", "why_tests_cant": "calls of many tasks race with the disconnect call; a test sees one order", "anchors": ["mqrstt/src/client.rs: disconnect, disconnect_with_properties", "mqrstt/src/tokio/network.rs: run", "mqrstt/src/smol/network.rs: run"]}
{"id": "C94", "title": "A disconnect call ends the connection on which it was made", "statement": "If run reports an outgoing disconnect, a disconnect call was made since that connection was established; each disconnect call ends at most one run.", "quantifier": "all histories of either network", "why_tests_cant": "the call may be made at any moment, also while there is no connection; tests call it on a fresh connection", "anchors": ["mqrstt/src/client.rs: disconnect", "mqrstt/src/tokio/network.rs: connect, run", "mqrstt/src/smol/network.rs: connect, run"]}
{"id": "C95", "title": "Incomplete packets are waited for, impossible ones are not", "statement": "While a packet is incomplete and the connection is open, neither connect nor run reports an error because of it: an error without a packet having been read means that the connection was closed or that what has arrived cannot become a packet, whatever follows. connect does not go on waiting when the connection is closed, when no packet begins with the first byte, or (tokio) when the answer is complete.", "quantifier": "all byte strings and all ways of splitting them, all states of either network", "why_tests_cant": "quantifies over all continuations of what has arrived", "anchors": ["mqrstt/src/tokio/stream.rs: connect, read_packet", "mqrstt/src/smol/stream.rs: connect, read, read_required_bytes, parse_message", "mqrstt/src/packets/mod.rs: Packet::async_read, Packet::read"]}
{"id": "C96", "title": "The handler is told the topic of every message", "statement": "If the server uses topic aliases only as far as the client's CONNECT allows, every message given to the handler has a topic, and it is the one the server meant.", "quantifier": "all sequences of option setters, all histories of either network with a server that keeps to what CONNECT announces", "why_tests_cant": "depends on what was announced on this connection and on everything the server has sent before; tests hand single packets to the handler", "anchors": ["mqrstt/src/connect_options.rs: ConnectOptions, create_connect_from_options", "mqrstt/src/tokio/network.rs: run", "mqrstt/src/smol/network.rs: run", "mqrstt/src/state_handler.rs: handle_incoming_publish"]}
{"id": "C97", "title": "QoS 0 messages are sent at most once", "statement": "Over all connections of a client, each QoS 0 message that was accepted reaches a server at most once, and in the order of acceptance.", "quantifier": "all histories of either network, wherever the future of run is dropped", "why_tests_cant": "duplicates arise from cancelling at one particular await point", "anchors": ["mqrstt/src/tokio/network.rs: run", "mqrstt/src/smol/network.rs: run", "mqrstt/src/smol/stream.rs: write", "mqrstt/src/state_handler.rs: handle_incoming_connack"]}
{"id": "C98", "title": "A session that the client does not have is not resumed", "statement": "If the client has no session state, or asked for a new session, and the server says in CONNACK that it has resumed one, the client does not use the connection (MQTT v5 3.2.2-4), and in any case sends nothing for that session.", "quantifier": "all histories of either network up to the first run, all CONNACKs", "why_tests_cant": "what the server claims is not under the control of a test of the client", "anchors": ["mqrstt/src/state_handler.rs: handle_incoming_connack", "mqrstt/src/tokio/network.rs: connect", "mqrstt/src/smol/network.rs: connect"]}
{"id": "C99", "title": "The text of a packet tells it apart", "statement": "Two packets have the same Display text exactly if they agree in everything the text is about (type, identifier, reason code, topic, QoS, flags, user name, client identifier, ...): no topic or name can make a packet look like another one; reason codes and QoS are shown under the names MQTT v5 gives to them, numbers in decimal digits, flags in words, and user name and password as literals from which they can be read back.", "quantifier": "all pairs of packets, all reason codes of all packet types", "why_tests_cant": "ambiguity needs two different packets with the same text; the texts are infinitely many", "anchors": ["mqrstt/src/packets/mod.rs: impl Display for Packet", "mqrstt/src/packets/macros/reason_code_macros.rs"]}
{"id": "C100", "title": "Messages are answered at once", "statement": "When run has read a QoS 1 or QoS 2 message or a PUBREL, the next thing it does, before reading or writing anything else, is to send the answer MQTT v5 demands, after at most a call of the handler with just this packet; otherwise run ends.", "quantifier": "all histories of either network, any timing and fragmentation", "why_tests_cant": "quantifies over every interleaving of reads, writes, pings and client calls", "anchors": ["mqrstt/src/tokio/network.rs: run", "mqrstt/src/smol/network.rs: run", "mqrstt/src/state_handler.rs: handle_incoming_packet", "mqrstt/src/tokio/stream.rs", "mqrstt/src/smol/stream.rs"]}
{"id": "C101", "title": "What exceeds the announced limits is not processed", "statement": "A packet larger than the maximum packet size in the client's CONNECT, and a message that exceeds the receive maximum in it, end the connection (MQTT v5 3.1.2.11.4, 3.3.4) and are not given to the handler.", "quantifier": "all histories of either network", "why_tests_cant": "tests use servers that keep to the limits", "anchors": ["mqrstt/src/connect_options.rs: ConnectOptions", "mqrstt/src/tokio/stream.rs: read", "mqrstt/src/smol/stream.rs: parse_message", "mqrstt/src/state_handler.rs: handle_incoming_publish"]}
{"id": "C102", "title": "Authentication data goes with an authentication method", "statement": "No packet with authentication data but without an authentication method is sent, and none is accepted (MQTT v5 3.1.2.11.10, 3.2.2.3.18, 3.15.2.2.3).", "quantifier": "all packets of the types with authentication data, both writers, both readers, all byte sequences", "why_tests_cant": "the four codecs decide this in five places; tests use packets with both properties or with none", "anchors": ["mqrstt/src/packets/connect/connect_properties.rs", "mqrstt/src/packets/connack/properties.rs", "mqrstt/src/packets/auth/properties.rs", "mqrstt/src/packets/macros/properties_macros.rs"]}
{"id": "C103", "title": "A session survives dropped calls", "statement": "The futures of run and connect may be dropped at any await point and as often as one likes: the clients get the same identifiers as in a history without drops, no identifier is in use twice, nothing is written for the first time that was not submitted or that was written before, the handler misses at most one packet per drop, and after the drop run does nothing and can be called again.", "quantifier": "all histories of either network in which run and connect are dropped at every await point", "why_tests_cant": "needs every await point of every branch, in every state, repeatedly", "anchors": ["mqrstt/src/tokio/network.rs: run, connect", "mqrstt/src/smol/network.rs: run, connect", "mqrstt/src/state_handler.rs", "mqrstt/src/available_packet_ids.rs"]}
{"id": "C104", "title": "What arrives is processed in the end", "statement": "As long as run goes on and the loop does not neglect the connection for ever, every packet whose bytes have all arrived is processed at some time, in order, whatever else is written, called or becomes due meanwhile.", "quantifier": "all endless schedules of either network, all fragmentations", "why_tests_cant": "a liveness property: every finite test run satisfies it or proves nothing", "anchors": ["mqrstt/src/tokio/network.rs: run", "mqrstt/src/tokio/stream.rs: read", "mqrstt/src/smol/network.rs: run", "mqrstt/src/smol/stream.rs: read, parse_message"]}
{"id": "C105", "title": "Only MQTT is understood", "statement": "Whatever bytes either reader accepts as a packet are a packet in MQTT v5's wire format, and the packet returned says exactly what those bytes say: nothing else is ever taken for a packet, however the bytes came about.", "quantifier": "all byte strings, all packet types, both readers", "why_tests_cant": "the inputs that must be refused are all byte strings but the legal ones; fuzzing samples them without knowing what the bytes should have meant", "anchors": ["mqrstt/src/packets/mod.rs: read, async_read, read_packet, async_read_packet", "mqrstt/src/packets/*/mod.rs: PacketRead, PacketAsyncRead", "mqrstt/src/packets/macros/properties_macros.rs"]}
{"id": "C106", "title": "A conforming server is understood", "statement": "While a server sends packets in MQTT v5's wire format, in any form the standard allows, the packets the client processes on the connection are the first ones of those sent, unchanged and in order, however the bytes arrive and whatever else the client does; and whoever sends the bytes, the packets processed are what the bytes say one after the other.", "quantifier": "all histories of both networks, all sequences of packets a server may send, all legal encodings of them, all ways of splitting the bytes", "why_tests_cant": "combines all encodings the standard allows, in every order, with all interleavings of reading; a test server sends only the forms its author uses", "anchors": ["mqrstt/src/tokio/network.rs: Network::connect, run", "mqrstt/src/tokio/stream.rs: read", "mqrstt/src/smol/network.rs: Network::connect, run", "mqrstt/src/smol/stream.rs: read, parse_message", "mqrstt/src/packets/mod.rs: read, async_read", "mqrstt/src/packets/pubrec/mod.rs: PacketAsyncRead for PubRec"]}
{"id": "C107", "title": "A dropped run has done the first part of a turn and nothing else", "statement": "If the future of run is dropped in the middle of its work, then it was waiting for the user's handler or for the connection to take bytes, and what is left behind is exactly what the same turn of its loop does up to that point: a packet read has been taken from the connection and processed, a packet to be sent has left the queue and nothing else has changed, and an initial part of the packet at hand (smol: of the write buffer) is on the wire. Whatever is written later on that connection follows those bytes; smol first writes all that is left in its buffer.", "quantifier": "all histories of both networks with drops anywhere, all branches of the loop, all places where the future can be dropped, all numbers of bytes written", "why_tests_cant": "a test would have to drop the future at every await point of every branch and after every byte, in every state", "anchors": ["mqrstt/src/tokio/network.rs: Network::run", "mqrstt/src/tokio/stream.rs: write_packet", "mqrstt/src/smol/network.rs: Network::run, smol_select", "mqrstt/src/smol/stream.rs: write, write_all"]}
{"id": "C108", "title": "Only the network, the user or the server ends run", "statement": "If the application calls the client legally and keeps it, and the server follows the MQTT v5 wire format and sends only what is in its place (messages, releases, ping responses, a disconnect, and acknowledgements for which the client waits), then run ends only because the connection broke, one side disconnected, the server did not answer a ping or there was no connection: never with a decoding error, an encoding error, an error of the session, a missing sender or a panic.", "quantifier": "all histories of both networks in all schedules, all legal calls, all packets a conforming server may send in any of their forms, all ways of splitting the bytes", "why_tests_cant": "it combines every kind of packet with every state of the session and every schedule; tests use a handful of well-formed conversations", "anchors": ["mqrstt/src/tokio/network.rs: Network::run", "mqrstt/src/smol/network.rs: Network::run", "mqrstt/src/state_handler.rs: StateHandler::handle_incoming_packet, handle_outgoing_packet", "mqrstt/src/error.rs: ConnectionError"]}
{"id": "C109", "title": "The network and the server decide what becomes of connect", "statement": "Whatever has happened before, with legal options, a client that still exists and a server whose answer is a CONNACK in any form the MQTT v5 wire format allows, connect fails as broken exactly if the connection does not take what is written or ends before the answer is complete, fails with the server's reason code exactly if the server refuses, succeeds exactly if it accepts, and otherwise waits: it never fails or panics for a reason of the client's own.", "quantifier": "all histories of both networks before the call, all legal options, all CONNACKs in all their encodings, every split and every point at which the stream may end, every failure of a write", "why_tests_cant": "it combines every prior history and every encoding of the answer with every fragmentation and every point of failure; tests use one fresh client, one CONNACK and an unbroken connection", "anchors": ["mqrstt/src/tokio/network.rs: Network::connect", "mqrstt/src/smol/network.rs: Network::connect", "mqrstt/src/tokio/stream.rs: StreamExt::connect", "mqrstt/src/smol/stream.rs: Stream::connect, read, read_required_bytes", "mqrstt/src/state_handler.rs: StateHandler::handle_incoming_connack"]}
{"id": "C110", "title": "Decoding errors say what is wrong", "statement": "When either decoder reports an error, what the error says is true of the bytes it was given: an unknown first byte is one no packet begins with; a property called unknown, not allowed or repeated stands where a property belongs and is unknown, is not allowed in that packet or has occurred before; a string called no UTF-8 is none; data called too short are too short; and an error about the protocol version quotes the CONNECT.", "quantifier": "all byte strings given to the buffered and to the streaming decoder, all packet types", "why_tests_cant": "it quantifies over every malformed input; a test shows the error for one malformed packet, and nobody tests that an error is not reported under a wrong name", "anchors": ["mqrstt/src/packets/mod.rs: Packet::read, Packet::async_read, PacketType::from_first_byte", "mqrstt/src/packets/error.rs: DeserializeError", "mqrstt/src/packets/macros/properties_macros.rs", "mqrstt/src/packets/macros/reason_code_macros.rs", "mqrstt/src/packets/*/properties.rs"]}
{"id": "C111", "title": "The two runtimes can be exchanged", "statement": "A program that used the smol client and is moved to the tokio client, with the same options and a server that sends the same bytes, sees nothing it could not have seen before: every history of packets written, read and delivered and of results of connect, run and the calls is possible with both; and the other way round, apart from the times of writing.", "quantifier": "all option sets, all histories of either network with its clients, all schedules, all failures of the network, all ways in which the server's bytes are cut into reads", "why_tests_cant": "it relates all executions of two implementations; a test runs one script against one of them", "anchors": ["mqrstt/src/tokio/network.rs", "mqrstt/src/tokio/stream.rs", "mqrstt/src/smol/network.rs", "mqrstt/src/smol/stream.rs", "mqrstt/src/client.rs"]}
{"id": "C112", "title": "The errors of run and connect are true", "statement": "If run or connect ends with an error, what the error says is so: no network means that there is no connection; no sender, that there is no client left; an I/O error, that the connection broke or was closed; an encoding error, that a packet of the client cannot be encoded in this way; a decoding error, that what follows the packets read so far is no packet, in the way the error says; a refusal, that the server answered with a CONNACK with this reason code; an unexpected packet, that the packet just read is not one a server may send there; and an unsolicited one, that it acknowledges nothing that was sent and is not acknowledged yet.", "quantifier": "all option sets, all histories of calls, connects, runs and breaks of the connection, all bytes from the server, all schedules, both runtimes", "why_tests_cant": "each error has many causes along all histories; a test provokes an error and looks at its kind, but cannot show that the error never comes without its cause", "anchors": ["mqrstt/src/tokio/network.rs", "mqrstt/src/smol/network.rs", "mqrstt/src/tokio/stream.rs", "mqrstt/src/smol/stream.rs", "mqrstt/src/state_handler.rs", "mqrstt/src/error.rs"]}
{"id": "C113", "title": "The errors of calls are true", "statement": "If publish, subscribe, unsubscribe or disconnect returns an error, what the error says is so: the network is gone (it was dropped, or run or connect panicked); a topic named in the call has the length in the error, and it is more than 65535 bytes; or the packet has the size in the error, and it is more than the maximum packet size in the options.", "quantifier": "all option sets, all histories of calls, connects and runs, all arguments, both runtimes", "why_tests_cant": "that an error never comes without its cause is a statement about all histories and all arguments; tests call with a few large values", "anchors": ["mqrstt/src/client.rs", "mqrstt/src/error.rs", "mqrstt/src/packets/publish/mod.rs", "mqrstt/src/packets/subscribe/mod.rs", "mqrstt/src/packets/unsubscribe/mod.rs"]}
{"id": "C114", "title": "The text of an error tells what it is", "statement": "The text (Display) of an error determines the error: errors of different kinds, with different reason codes, packet types, packet identifiers, properties, sizes or other numbers have different texts, whatever the text of an I/O error, a type name or a piece of the input in it; and what the text says is so.", "quantifier": "all errors of run and connect, of calls and of the session, all texts of the parts that come from elsewhere", "why_tests_cant": "there are infinitely many pairs of errors; a test compares a few texts", "anchors": ["mqrstt/src/error.rs ConnectionError HandlerError ClientError PacketValidationError", "mqrstt/src/packets/error.rs DeserializeError SerializeError"]}
{"id": "C115", "title": "Calls that can be served are accepted, others are not", "statement": "As long as the network exists, a call with legal arguments whose packet is not larger than the maximum packet size in the options is accepted; it waits for a packet identifier only if it needs one and all have been handed out. A call with a topic that is too long or a packet larger than the maximum is refused. Once the network is gone every call returns an error at once, and so does every call that was waiting for room in the queue.", "quantifier": "all option sets, all histories of calls, connects and runs, all arguments, both runtimes", "why_tests_cant": "that no history leads to a state in which a good call is refused, a bad one slips through or a call hangs cannot be tried out", "anchors": ["mqrstt/src/client.rs", "mqrstt/src/packets/publish/mod.rs", "mqrstt/src/packets/subscribe/mod.rs", "mqrstt/src/packets/unsubscribe/mod.rs", "mqrstt/src/lib.rs"]}
{"id": "C116", "title": "Nothing is stuck for good", "statement": "Whatever calls, errors, lost connections, cancelled runs and packets of the server have come before: as long as the network and a client exist, there is a way on without any new call in which everything is finished. The client connects again and runs, the server accepts the connection and answers; then every packet handed over so far is written, all calls that wait return, every message gets its last acknowledgement, none is refused or given up, and nothing is kept in memory.", "quantifier": "all option sets, all histories of calls, connects, runs, drops of run and bytes received, both runtimes", "why_tests_cant": "a dead end is a state in which no continuation helps; tests can only try some continuations from some states", "anchors": ["mqrstt/src/tokio/network.rs", "mqrstt/src/smol/network.rs", "mqrstt/src/state_handler.rs", "mqrstt/src/state.rs", "mqrstt/src/client.rs"]}
{"id": "C117", "title": "What makes connect or run panic", "statement": "Nothing that the server sends, however its bytes are cut into pieces, and nothing that clients ask for makes connect or run panic.", "quantifier": "all option sets, all histories of calls, connects, runs, drops of run and bytes received, both runtimes, with and without overflow checks", "why_tests_cant": "a panic ends the task and with it the session; tests reach only the byte sequences, cuts and session states somebody thought of", "anchors": ["mqrstt/src/tokio/network.rs", "mqrstt/src/tokio/stream.rs", "mqrstt/src/smol/network.rs", "mqrstt/src/smol/stream.rs", "mqrstt/src/state_handler.rs", "mqrstt/src/state.rs"]}
{"id": "C118", "title": "The server may answer in any order", "statement": "If the client accepts a sequence of packets from the server, it accepts them in every other order that keeps the packets of each exchange (one packet identifier of one side) in order. It gives each packet the same answer, gives the same packets to the user's handler, and ends in the same state up to the order in which free packet identifiers will be used.", "quantifier": "all configurations, all histories before, all sequences of packets of the server and all their reorderings that keep the order within each exchange", "why_tests_cant": "the number of orders grows with the factorial of the number of packets, and they multiply with the session states they meet; tests fix one order", "anchors": ["mqrstt/src/state_handler.rs: handle_incoming_packet", "mqrstt/src/state.rs"]}
{"id": "C119", "title": "What messages say does not matter", "statement": "If topics, payloads, properties and retain flags are replaced by others of the same lengths, in all calls and in all messages of the server, then everything happens as before with the replaced content: the same calls are accepted and get the same packet identifiers, the same packets are written, repeated, answered and given to the handler.", "quantifier": "all replacements that keep lengths, all configurations, all histories of calls, submissions, dropped calls, writes, received packets and reconnects", "why_tests_cant": "a dependence on some special content (an empty payload, a reserved topic, a particular byte) is only found by a test that happens to use it", "anchors": ["mqrstt/src/state_handler.rs", "mqrstt/src/state.rs", "mqrstt/src/client.rs", "mqrstt/src/packets/publish/mod.rs: validate", "mqrstt/src/packets/subscribe/mod.rs: validate", "mqrstt/src/packets/unsubscribe/mod.rs: validate"]}
{"id": "C120", "title": "Only differences of time matter", "statement": "If a whole history, from the creation of the network on, takes place some time later, with the same distances between its moments, then everything the user, the handler and the server see is the same, that much later: the same packets, the same pings, the same timeouts and the same results.", "quantifier": "all delays, all options, all histories of calls, connects, runs, arriving bytes, timers, failed writes and dropped futures, on tokio and on smol", "why_tests_cant": "a test runs at one point of the clock and after a short time of operation; a dependence on the absolute time (uptime of the machine, a clock compared with a constant) does not show", "anchors": ["mqrstt/src/tokio/network.rs: connect, tokio_select", "mqrstt/src/smol/network.rs: connect, smol_select"]}
{"id": "C121", "title": "Identity, credentials and last will go into CONNECT and nowhere else", "statement": "Two clients with the same keep-alive time, clean-start flag and limits may differ in client identifier, user name, password, last will, authentication data, session expiry, topic alias maximum, user properties and requested information. If the CONNECT of both can be encoded, the same history of calls, server bytes, timers and faults shows the same with either: the same results, the same packets written and delivered at the same times, except for the content of CONNECT, which is that of each client's own options. So credentials are never written in another packet, and no behaviour depends on them.", "quantifier": "all pairs of options that agree in keep-alive, clean start and limits, all histories, on tokio and on smol", "why_tests_cant": "a statement about pairs of whole histories: a test runs with one set of options and cannot see that nothing else depends on them", "anchors": ["mqrstt/src/connect_options.rs: ConnectOptions, create_connect_from_options", "mqrstt/src/tokio/network.rs: Network::connect", "mqrstt/src/smol/network.rs: Network::connect"]}
{"id": "C122", "title": "A release build does what a debug build does", "statement": "On smol, the same history of calls, server bytes (in the same pieces), timers and faults shows exactly the same in a program compiled without overflow checks as in one compiled with them.", "quantifier": "all options and all histories of calls, connects, runs, pieces of bytes, timers and faults, on smol", "why_tests_cant": "tests run in debug builds and the application is shipped as a release build; where the two part depends on how the bytes happen to be cut", "anchors": ["mqrstt/src/smol/stream.rs: parse_message, read", "mqrstt/src/smol/network.rs: smol_select, connect"]}
{"id": "C123", "title": "A packet-size limit that is not reached has no effect", "statement": "If in some history no call is refused because its packet would be too large, then the same history with any larger maximum packet size (and the same keep-alive time, clean-start flag, send and receive maximum) shows exactly the same results, packets, deliveries and times, except for the content of CONNECT.", "quantifier": "all pairs of options of which the second allows larger packets, all histories, on tokio and on smol", "why_tests_cant": "a statement about pairs of whole histories and all limits; a test runs under one limit", "anchors": ["mqrstt/src/connect_options.rs: set_maximum_packet_size", "mqrstt/src/client.rs: MqttClient", "mqrstt/src/packets/publish/mod.rs: PacketValidation", "mqrstt/src/packets/subscribe/mod.rs: PacketValidation"]}
{"id": "C124", "title": "The keep-alive time matters to the timer only", "statement": "In every history in which the keep-alive timer never fires, the configured keep-alive time and the ones that servers demand have no effect: two configurations that agree in clean start, send and receive maximum and packet size limit show exactly the same results, packets, deliveries and times, except for the content of CONNECT.", "quantifier": "all pairs of options that agree in clean start and limits, all histories without a timer turn, on tokio and on smol", "why_tests_cant": "a statement about pairs of whole histories and all keep-alive times; a test runs with one", "anchors": ["mqrstt/src/connect_options.rs: set_keep_alive_interval", "mqrstt/src/tokio/network.rs: Network::connect, tokio_select", "mqrstt/src/smol/network.rs: Network::connect, smol_select"]}
