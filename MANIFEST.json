{
 "claims": [
  {
   "property": "C01",
   "status": "proved",
   "theorems": [
    "Mqrstt.Props.C01_varint_round_trip"
   ],
   "note": "both writers and all three readers, all naturals, all trailing bytes"
  },
  {
   "property": "C02",
   "status": "proved",
   "theorems": [
    "Mqrstt.Props.C02_value_bound",
    "Mqrstt.Props.C02_varint_decoding"
   ],
   "note": "complete case analysis of every byte string"
  },
  {
   "property": "C03",
   "status": "proved",
   "theorems": [
    "Mqrstt.Props.C03_oversize_refused"
   ],
   "note": "all packets, both writers"
  },
  {
   "property": "C04",
   "status": "proved",
   "theorems": [
    "Mqrstt.Props.C04_primitive_round_trip",
    "Mqrstt.Props.C04_nothing_else_accepted",
    "Mqrstt.Props.C04_text_is_unicode"
   ],
   "note": "all primitive types, both readers, in both directions: round trip, and nothing else accepted"
  },
  {
   "property": "C05",
   "status": "partial",
   "theorems": [
    "Mqrstt.Props.C05_length_prefix_partial",
    "Mqrstt.Props.C05_length_prefix_violated"
   ],
   "note": "false for values longer than 65,535 bytes: the length is truncated to 16 bits without an error (C05_length_prefix_violated); proved for the rest"
  },
  {
   "property": "C06",
   "status": "proved",
   "theorems": [
    "Mqrstt.Props.C06_first_byte_accepted",
    "Mqrstt.Props.C06_first_byte_written"
   ],
   "note": "all 256 bytes and all packets"
  },
  {
   "property": "C07",
   "status": "proved",
   "theorems": [
    "Mqrstt.Props.C07_reason_codes"
   ],
   "note": "all nine tables, all 256 bytes"
  },
  {
   "property": "C08",
   "status": "partial",
   "theorems": [
    "Mqrstt.Props.C08_buffered_round_trip_partial",
    "Mqrstt.Props.C08_buffered_round_trip_violated",
    "Mqrstt.Props.C08_exact_partial"
   ],
   "note": "the classes are exact: a well-formed packet that fits comes back iff it is in none of three classes (C08_exact_partial); witnesses in C08_buffered_round_trip_violated"
  },
  {
   "property": "C09",
   "status": "partial",
   "theorems": [
    "Mqrstt.Props.C09_streaming_round_trip_partial",
    "Mqrstt.Props.C09_streaming_round_trip_violated",
    "Mqrstt.Props.C09_exact_partial"
   ],
   "note": "the classes are exact: a well-formed packet that fits comes back iff it is in none of four classes (C09_exact_partial); witnesses in C09_streaming_round_trip_violated"
  },
  {
   "property": "C10",
   "status": "partial",
   "theorems": [
    "Mqrstt.Props.C10_codecs_interchangeable_partial",
    "Mqrstt.Props.C10_codecs_interchangeable_violated",
    "Mqrstt.Props.C10_exact_partial"
   ],
   "note": "the classes are exact in both directions (C10_exact_partial); witnesses in the _violated theorem"
  },
  {
   "property": "C11",
   "status": "partial",
   "theorems": [
    "Mqrstt.Props.C11_announced_sizes_partial",
    "Mqrstt.Props.C11_wire_len_partial",
    "Mqrstt.Props.C11_announced_sizes_violated",
    "Mqrstt.Props.C11_exact_partial"
   ],
   "note": "proved outside the classes whose announced size is wrong; for well-formed packets the classes are exact (C11_exact_partial); witnesses in the _violated theorem"
  },
  {
   "property": "C12",
   "status": "partial",
   "theorems": [
    "Mqrstt.Props.C12_frame_isolation_partial",
    "Mqrstt.Props.C12_frame_isolation_violated",
    "Mqrstt.Props.C12_exact_partial"
   ],
   "note": "the buffered reader consumes exactly the frame; false exactly for headers that cannot begin a packet, which are left in the buffer (C12_exact_partial, C12_frame_isolation_violated)"
  },
  {
   "property": "C13",
   "status": "partial",
   "theorems": [
    "Mqrstt.Props.C13_streaming_isolation_partial",
    "Mqrstt.Props.C13_streaming_isolation_violated"
   ],
   "note": "streaming reader; packets whose announced length disagrees with their contents desynchronise it, see the _violated theorem"
  },
  {
   "property": "C14",
   "status": "proved",
   "theorems": [
    "Mqrstt.Props.C14_incomplete_frames",
    "Mqrstt.Props.C14_written_packets"
   ],
   "note": "every strict prefix of every frame"
  },
  {
   "property": "C15",
   "status": "partial",
   "theorems": [
    "Mqrstt.Props.C15_no_panic_partial",
    "Mqrstt.Props.C15_no_panic_violated",
    "Mqrstt.Props.C15_exact_partial"
   ],
   "note": "no reader panics on any input except the buffered one, exactly on a CONNECT that breaks off within a number (C15_exact_partial, C15_no_panic_violated)"
  },
  {
   "property": "C16",
   "status": "partial",
   "theorems": [
    "Mqrstt.Props.C16_sections_accepted_partial",
    "Mqrstt.Props.C16_sections_rejected_partial",
    "Mqrstt.Props.C16_sections_violated",
    "Mqrstt.Props.C16_sections_complete_partial"
   ],
   "note": "all sections, both readers: accepted = legal, illegal = rejected, legal = accepted, except the listed cases, for each of which a violation is proved"
  },
  {
   "property": "C17",
   "status": "proved",
   "theorems": [
    "Mqrstt.Props.C17_subscription_options"
   ],
   "note": "all options, all 256 bytes"
  },
  {
   "property": "C18",
   "status": "partial",
   "theorems": [
    "Mqrstt.Props.C18_fields_partial",
    "Mqrstt.Props.C18_keep_alive_violated",
    "Mqrstt.Props.C18_own_limits",
    "Mqrstt.Props.C18_wire_head",
    "Mqrstt.Props.C18_server_sees"
   ],
   "note": "everything but the keep-alive for all setter sequences; keep-alive below 65,536 s; above it is reduced modulo 65,536 (C18_keep_alive_violated)"
  },
  {
   "property": "C19",
   "status": "partial",
   "theorems": [
    "Mqrstt.Props.C19_max_packet_size_partial",
    "Mqrstt.Props.C19_max_packet_size_violated"
   ],
   "note": "the check ignores the fixed header: accepted packets can be up to five bytes too large (C19_max_packet_size_violated); packets that fit are never rejected for size"
  },
  {
   "property": "C20",
   "status": "proved",
   "theorems": [
    "Mqrstt.Props.C20_ids_unique"
   ],
   "note": "all histories of calls, submissions, writes, receipts, connects and drops of the client/handler model"
  },
  {
   "property": "C21",
   "status": "proved",
   "theorems": [
    "Mqrstt.Props.C21_ids_valid",
    "Mqrstt.Props.C21_pool_never_overflows"
   ],
   "note": "all histories; every panic of the model is one of the listed Fatal steps and none of them is the pool overflow"
  },
  {
   "property": "C22",
   "status": "proved",
   "theorems": [
    "Mqrstt.Props.C22_no_id_missing",
    "Mqrstt.Props.C22_completion_returns_id"
   ],
   "note": "all histories; completions return exactly the identifier, harmless histories miss none"
  },
  {
   "property": "C23",
   "status": "partial",
   "theorems": [
    "Mqrstt.Props.C23_exactly_these_lost_partial",
    "Mqrstt.Props.C23_ids_lost_violated"
   ],
   "note": "the lost identifiers are exactly characterised; the property itself is false of the code, four causes shown in C23_ids_lost_violated"
  },
  {
   "property": "C24",
   "status": "proved",
   "theorems": [
    "Mqrstt.Props.C24_send_window"
   ],
   "note": "all histories"
  },
  {
   "property": "C25",
   "status": "proved",
   "theorems": [
    "Mqrstt.Props.C25_unacked_kept",
    "Mqrstt.Props.C25_only_written_kept"
   ],
   "note": "all histories"
  },
  {
   "property": "C26",
   "status": "proved",
   "theorems": [
    "Mqrstt.Props.C26_resumption",
    "Mqrstt.Props.C26_reconnect_succeeds"
   ],
   "note": "all histories"
  },
  {
   "property": "C27",
   "status": "partial",
   "theorems": [
    "Mqrstt.Props.C27_fresh_session_partial",
    "Mqrstt.Props.C27_awaiting_pubcomp_violated"
   ],
   "note": "identifiers of QoS 2 publishes waiting for PUBCOMP are never freed, C27_awaiting_pubcomp_violated; everything else proved"
  },
  {
   "property": "C28",
   "status": "proved",
   "theorems": [
    "Mqrstt.Props.C28_pubrel_only_after_pubrec",
    "Mqrstt.Props.C28_only_pubcomp_releases",
    "Mqrstt.Props.C28_pubcomp_releases"
   ],
   "note": "all histories"
  },
  {
   "property": "C29",
   "status": "proved",
   "theorems": [
    "Mqrstt.Props.C29_qos0_qos1"
   ],
   "note": "all states; both run loops use this step"
  },
  {
   "property": "C30",
   "status": "proved",
   "theorems": [
    "Mqrstt.Props.C30_not_delivered_twice",
    "Mqrstt.Props.C30_duplicates_answered",
    "Mqrstt.Props.C30_always_accepted"
   ],
   "note": "all histories"
  },
  {
   "property": "C31",
   "status": "partial",
   "theorems": [
    "Mqrstt.Props.C31_not_lost_partial",
    "Mqrstt.Props.C31_message_lost_violated"
   ],
   "note": "false of the code for a message whose first copy to arrive is marked DUP (C31_message_lost_violated); proved otherwise"
  },
  {
   "property": "C32",
   "status": "partial",
   "theorems": [
    "Mqrstt.Props.C32_unsolicited_partial",
    "Mqrstt.Props.C32_wrong_kind_violated",
    "Mqrstt.Props.C32_ends_connection_partial"
   ],
   "note": "false of the code for PUBACK/PUBREC of the wrong kind (C32_wrong_kind_violated) and for identifiers without a slot, which crash (C34); proved otherwise"
  },
  {
   "property": "C33",
   "status": "proved",
   "theorems": [
    "Mqrstt.Props.C33_unexpected",
    "Mqrstt.Props.C33_only_unexpected",
    "Mqrstt.Props.C33_ends_connection"
   ],
   "note": "all states; C33_ends_connection: seen from outside, on both networks"
  },
  {
   "property": "C34",
   "status": "partial",
   "theorems": [
    "Mqrstt.Props.C34_no_panic_partial",
    "Mqrstt.Props.C34_panic_violated"
   ],
   "note": "proved if send maximum <= receive maximum and PUBACK/PUBREC identifiers are in range; every other case panics (C34_panic_violated, C21_pool_never_overflows)"
  },
  {
   "property": "C35",
   "status": "proved",
   "theorems": [
    "Mqrstt.Props.C35_pubrel_answered"
   ],
   "note": "all histories"
  },
  {
   "property": "C36",
   "status": "proved",
   "theorems": [
    "Mqrstt.Props.C36_run_needs_connect",
    "Mqrstt.Props.C36_start_tokio",
    "Mqrstt.Props.C36_start_smol",
    "Mqrstt.Props.C36_session_survives_tokio",
    "Mqrstt.Props.C36_session_survives_smol",
    "Mqrstt.Props.C36_dropped_needs_connect_tokio",
    "Mqrstt.Props.C36_dropped_needs_connect_smol",
    "Mqrstt.Props.C36_dropped_start_tokio",
    "Mqrstt.Props.C36_dropped_start_smol"
   ],
   "note": "all histories of both networks; when run starts also with futures dropped anywhere (C36_dropped)"
  },
  {
   "property": "C37",
   "status": "proved",
   "theorems": [
    "Mqrstt.Props.C37_dropped_complete_tokio",
    "Mqrstt.Props.C37_dropped_complete_smol",
    "Mqrstt.Props.C37_status_truthful",
    "Mqrstt.Props.C37_status_complete",
    "Mqrstt.Props.C37_dropped_tokio",
    "Mqrstt.Props.C37_dropped_smol"
   ],
   "note": "all histories of both networks; also with futures dropped anywhere: the status is true (C37_dropped), and it follows every DISCONNECT unless run is dropped in the handler (C37_dropped_complete)"
  },
  {
   "property": "C38",
   "status": "proved",
   "theorems": [
    "Mqrstt.Props.C38_dropped_in_order_tokio",
    "Mqrstt.Props.C38_dropped_before_ack_tokio",
    "Mqrstt.Props.C38_dropped_in_order_smol",
    "Mqrstt.Props.C38_dropped_before_ack_smol",
    "Mqrstt.Props.C38_in_order",
    "Mqrstt.Props.C38_every_packet",
    "Mqrstt.Props.C38_handler_before_ack"
   ],
   "note": "all histories of both networks; with futures dropped anywhere the order and the acknowledgements (C38_dropped), while a packet read just before the drop may not reach the handler"
  },
  {
   "property": "C39",
   "status": "proved",
   "theorems": [
    "Mqrstt.Props.C39_fifo",
    "Mqrstt.Props.C39_next",
    "Mqrstt.Props.C39_network_fifo",
    "Mqrstt.Props.C39_session_in_tokio",
    "Mqrstt.Props.C39_session_in_smol"
   ],
   "note": "all histories of the client/handler model and of both networks; the network models contain the client/handler model (C39_session_in_tokio, C39_session_in_smol)"
  },
  {
   "property": "C40",
   "status": "proved",
   "theorems": [
    "Mqrstt.Props.C40_ping_only_when_due",
    "Mqrstt.Props.C40_zero_never_pings",
    "Mqrstt.Props.C40_dropped_tokio",
    "Mqrstt.Props.C40_dropped_smol"
   ],
   "note": "all timed histories of both networks, also with futures of run and connect dropped anywhere (C40_dropped)"
  },
  {
   "property": "C41",
   "status": "partial",
   "theorems": [
    "Mqrstt.Props.C41_timeout_justified_tokio",
    "Mqrstt.Props.C41_timeout_justified_smol_partial",
    "Mqrstt.Props.C41_timeout_violated",
    "Mqrstt.Props.C41_dropped_tokio"
   ],
   "note": "tokio in full, also with futures dropped anywhere (C41_dropped_tokio); smol with keep-alive on and no dropped run before; otherwise false of the code (C41_timeout_violated)"
  },
  {
   "property": "C42",
   "status": "partial",
   "theorems": [
    "Mqrstt.Props.C42_keeps_alive_tokio",
    "Mqrstt.Props.C42_keeps_alive_smol_partial",
    "Mqrstt.Props.C42_keeps_alive_violated",
    "Mqrstt.Props.C42_dropped_keeps_alive_tokio",
    "Mqrstt.Props.C42_dropped_keeps_alive_smol_partial"
   ],
   "note": "tokio in full; smol if nothing is received; otherwise false of the code (C42_keeps_alive_violated); both parts also with futures dropped anywhere (C42_dropped)"
  },
  {
   "property": "C43",
   "status": "partial",
   "theorems": [
    "Mqrstt.Props.C43_interval_in_force_tokio",
    "Mqrstt.Props.C43_interval_in_force_smol",
    "Mqrstt.Props.C43_keep_alive_partial",
    "Mqrstt.Props.C43_keep_alive_violated",
    "Mqrstt.Props.C43_interval_in_force_dropped_tokio",
    "Mqrstt.Props.C43_interval_in_force_dropped_smol"
   ],
   "note": "the interval in force is characterised exactly, also with futures dropped anywhere (C43_interval_in_force_dropped); it is the required one unless an earlier connection demanded another or zero, then it is not (C43_keep_alive_violated)"
  },
  {
   "property": "C44",
   "status": "proved",
   "theorems": [
    "Mqrstt.Props.C44_packets_of_stream",
    "Mqrstt.Props.C44_packets_sent"
   ],
   "note": "all histories of the smol network and all ways of splitting the bytes"
  },
  {
   "property": "C45",
   "status": "partial",
   "theorems": [
    "Mqrstt.Props.C45_processed_partial",
    "Mqrstt.Props.C45_processed_violated"
   ],
   "note": "a packet is processed in the turn that reads its last byte if the ones before it have been processed; several packets in one read: false of the code (C45_processed_violated)"
  },
  {
   "property": "C46",
   "status": "partial",
   "theorems": [
    "Mqrstt.Props.C46_packets_of_stream_partial",
    "Mqrstt.Props.C46_packets_sent_partial",
    "Mqrstt.Props.C46_only_incomplete_lost_partial",
    "Mqrstt.Props.C46_processed_partial",
    "Mqrstt.Props.C46_packets_violated",
    "Mqrstt.Props.C46_dropped_run_violated"
   ],
   "note": "all histories in which no read is abandoned with bytes in hand; otherwise false of the code (C46_packets_violated)"
  },
  {
   "property": "C47",
   "status": "partial",
   "theorems": [
    "Mqrstt.Props.C47_failed_write_partial",
    "Mqrstt.Props.C47_publish_lost_violated"
   ],
   "note": "false of the code (C47_publish_lost_violated); the failed write does not disturb anything else"
  },
  {
   "property": "C48",
   "status": "proved",
   "theorems": [
    "Mqrstt.Props.C48_refused_tokio",
    "Mqrstt.Props.C48_refused_smol"
   ],
   "note": "both networks, all states and answers"
  },
  {
   "property": "C49",
   "status": "proved",
   "theorems": [
    "Mqrstt.Props.C49_call_content",
    "Mqrstt.Props.C49_submitted_once",
    "Mqrstt.Props.C49_nothing_else"
   ],
   "note": "all states and arguments"
  },
  {
   "property": "C50",
   "status": "partial",
   "theorems": [
    "Mqrstt.Props.C50_rejected_call_partial",
    "Mqrstt.Props.C50_refused_call_partial",
    "Mqrstt.Props.C50_identifier_used_up_violated"
   ],
   "note": "the identifier is used up (C50_identifier_used_up_violated); nothing else changes"
  },
  {
   "property": "C51",
   "status": "partial",
   "theorems": [
    "Mqrstt.Props.C51_split_partial",
    "Mqrstt.Props.C51_only_good_splits",
    "Mqrstt.Props.C51_split_violated"
   ],
   "note": "exactly the ways of splitting that work are characterised; for the others the code panics or hangs (C51_split_violated)"
  },
  {
   "property": "C52",
   "status": "partial",
   "theorems": [
    "Mqrstt.Props.C52_retransmission_smol",
    "Mqrstt.Props.C52_retransmission_tokio_partial",
    "Mqrstt.Props.C52_retransmission_violated",
    "Mqrstt.Props.C52_all_sent_again_smol"
   ],
   "note": "smol in full; tokio: order, completeness if every write works, flush errors; the errors of single writes are dropped (C52_retransmission_violated)"
  },
  {
   "property": "C53",
   "status": "partial",
   "theorems": [
    "Mqrstt.Props.C53_short_forms_partial",
    "Mqrstt.Props.C53_short_forms_violated"
   ],
   "note": "proved for all short forms except four, all of which are shown to be refused"
  },
  {
   "property": "C54",
   "status": "partial",
   "theorems": [
    "Mqrstt.Props.C54_suback_unsuback_partial",
    "Mqrstt.Props.C54_suback_violated"
   ],
   "note": "UNSUBACK in full, SUBACK except the reason string, which is always refused (C54_suback_violated)"
  },
  {
   "property": "C55",
   "status": "partial",
   "theorems": [
    "Mqrstt.Props.C55_marked_copies_partial",
    "Mqrstt.Props.C55_forgotten_violated"
   ],
   "note": "false of the code for copies without DUP (C55_forgotten_violated)"
  },
  {
   "property": "C56",
   "status": "proved",
   "theorems": [
    "Mqrstt.Props.C56_conversation",
    "Mqrstt.Props.C56_only_on_a_connection",
    "Mqrstt.Props.C56_dropped_tokio",
    "Mqrstt.Props.C56_dropped_smol",
    "Mqrstt.Props.C56_dropped_only_on_a_connection_tokio",
    "Mqrstt.Props.C56_dropped_only_on_a_connection_smol"
   ],
   "note": "all histories of both networks; the rules are an automaton over observations in Spec/Discipline.lean; the dropped theorems: also when the futures of run and connect are dropped anywhere, with the rules for that in Spec/DisciplineDrop.lean"
  },
  {
   "property": "C57",
   "status": "partial",
   "theorems": [
    "Mqrstt.Props.C57_next_tokio_partial",
    "Mqrstt.Props.C57_next_smol_partial",
    "Mqrstt.Props.C57_drained_tokio_partial",
    "Mqrstt.Props.C57_drained_smol_partial",
    "Mqrstt.Props.C57_eventually_tokio_partial",
    "Mqrstt.Props.C57_eventually_smol_partial",
    "Mqrstt.Props.C57_not_written_violated",
    "Mqrstt.Props.C57_dropped_tokio_partial",
    "Mqrstt.Props.C57_dropped_smol_partial",
    "Mqrstt.Props.C57_dropped_drained_tokio_partial",
    "Mqrstt.Props.C57_dropped_drained_smol_partial"
   ],
   "note": "every packet that can be encoded and is not a publish beyond the receive maximum (C34); on every endless schedule in which run goes on and the queue is not neglected for ever, everything accepted is written (C57_eventually); the head of the queue can be written also after futures of run and connect have been dropped (C57_dropped); an accepted packet that cannot be encoded ends run and is gone (C57_not_written_violated)"
  },
  {
   "property": "C58",
   "status": "partial",
   "theorems": [
    "Mqrstt.Props.C58_accepted_is_legal_partial",
    "Mqrstt.Props.C58_accepted_is_legal_violated"
   ],
   "note": "calls with legal arguments; the arguments themselves are not checked beyond topic length and size (C58_accepted_is_legal_violated)"
  },
  {
   "property": "C59",
   "status": "partial",
   "theorems": [
    "Mqrstt.Props.C59_writers_conform_partial",
    "Mqrstt.Props.C59_writers_conform_violated",
    "Mqrstt.Props.C59_exact_partial"
   ],
   "note": "exact (C59_exact_partial): all packets but those with empty authentication data, CONNACK with an assigned client identifier in the streaming writer (C59_writers_conform_violated) and SUBACK with a subscription identifier, which MQTT does not know"
  },
  {
   "property": "C60",
   "status": "partial",
   "theorems": [
    "Mqrstt.Props.C60_readers_complete_partial",
    "Mqrstt.Props.C60_unambiguous",
    "Mqrstt.Props.C60_readers_complete_violated",
    "Mqrstt.Props.C60_exact_partial"
   ],
   "note": "exact (C60_exact_partial): all encodings but SUBACK with a reason string, the misread short forms, wills with a payload format indicator (buffered) and SUBSCRIBE with several topics (streaming): C60_readers_complete_violated"
  },
  {
   "property": "C61",
   "status": "proved",
   "theorems": [
    "Mqrstt.Props.C61_at_most_100",
    "Mqrstt.Props.C61_waits_exactly_when_full"
   ],
   "note": "all histories"
  },
  {
   "property": "C62",
   "status": "partial",
   "theorems": [
    "Mqrstt.Props.C62_full_queue_blocks",
    "Mqrstt.Props.C62_no_identifier_blocks",
    "Mqrstt.Props.C62_handler_blocks_for_ever_violated",
    "Mqrstt.Props.C62_handler_calls_partial"
   ],
   "note": "handlers that find room in the queue and identifiers enough for their calls; otherwise the call waits for the loop that waits for the handler (C62_handler_blocks_for_ever_violated)"
  },
  {
   "property": "C63",
   "status": "proved",
   "theorems": [
    "Mqrstt.Props.C63_subscribe",
    "Mqrstt.Props.C63_unsubscribe"
   ],
   "note": "calls with at least one topic; the empty list is in C58"
  },
  {
   "property": "C64",
   "status": "partial",
   "theorems": [
    "Mqrstt.Props.C64_connect_smol",
    "Mqrstt.Props.C64_connect_tokio_partial",
    "Mqrstt.Props.C64_connect_tokio_violated",
    "Mqrstt.Props.C64_dropped_smol",
    "Mqrstt.Props.C64_dropped_tokio_partial"
   ],
   "note": "smol in full; tokio: all but the keep-alive time, which after a server keep-alive is replaced in later CONNECTs (C64_connect_tokio_violated); both also for histories with dropped futures"
  },
  {
   "property": "C65",
   "status": "proved",
   "theorems": [
    "Mqrstt.Props.C65_sender"
   ],
   "note": "both networks, all histories"
  },
  {
   "property": "C66",
   "status": "proved",
   "theorems": [
    "Mqrstt.Props.C66_exactly_once",
    "Mqrstt.Props.C66_all_arrived"
   ],
   "note": "both networks; the server and the network in between are those of Spec/EndToEnd.lean"
  },
  {
   "property": "C67",
   "status": "proved",
   "theorems": [
    "Mqrstt.Props.C67_at_least_once"
   ],
   "note": "both networks; the server and the network in between are those of Spec/EndToEnd.lean"
  },
  {
   "property": "C68",
   "status": "partial",
   "theorems": [
    "Mqrstt.Props.C68_old_connection_partial",
    "Mqrstt.Props.C68_old_connection_violated"
   ],
   "note": "holds when run had ended by itself; after a cancelled run and a failed connect the old connection is used (C68_old_connection_violated)"
  },
  {
   "property": "C69",
   "status": "proved",
   "theorems": [
    "Mqrstt.Props.C69_origin"
   ],
   "note": "both networks, all histories"
  },
  {
   "property": "C70",
   "status": "proved",
   "theorems": [
    "Mqrstt.Props.C70_wire_legal",
    "Mqrstt.Props.C70_legal_use_needed"
   ],
   "note": "both networks, all histories; C70_legal_use_needed shows that neither calls nor options are checked for legality, see C58"
  },
  {
   "property": "C71",
   "status": "partial",
   "theorems": [
    "Mqrstt.Props.C71_receive_maximum_partial",
    "Mqrstt.Props.C71_receive_maximum_violated"
   ],
   "note": "holds if the configured send maximum is at most the server's receive maximum; the client does not look at the latter (C71_receive_maximum_violated)"
  },
  {
   "property": "C72",
   "status": "partial",
   "theorems": [
    "Mqrstt.Props.C72_maximum_packet_size_partial",
    "Mqrstt.Props.C72_maximum_packet_size_violated"
   ],
   "note": "holds if the configured maximum plus five bytes is at most the server's and the application sends no DISCONNECT of its own; the client does not look at the server's limit (C72_maximum_packet_size_violated)"
  },
  {
   "property": "C73",
   "status": "partial",
   "theorems": [
    "Mqrstt.Props.C73_capabilities_partial",
    "Mqrstt.Props.C73_capabilities_violated"
   ],
   "note": "holds if everything the application asks for is supported by all servers it meets; the client does not look at what the server supports (C73_capabilities_violated)"
  },
  {
   "property": "C74",
   "status": "partial",
   "theorems": [
    "Mqrstt.Props.C74_topic_alias_partial",
    "Mqrstt.Props.C74_topic_alias_violated"
   ],
   "note": "holds if the application never leaves out a topic; a message sent with an alias is sent again with the alias only on a new connection (C74_topic_alias_violated)"
  },
  {
   "property": "C75",
   "status": "proved",
   "theorems": [
    "Mqrstt.Props.C75_at_least_once"
   ],
   "note": "the server and the network are specified in Spec/EndToEnd.lean and Spec/Inbound.lean"
  },
  {
   "property": "C76",
   "status": "partial",
   "theorems": [
    "Mqrstt.Props.C76_at_most_once",
    "Mqrstt.Props.C76_not_lost_partial",
    "Mqrstt.Props.C76_exactly_once_partial",
    "Mqrstt.Props.C76_lost_violated"
   ],
   "note": "at most once is proved in full; a finished message may never have been given to the handler: a copy marked DUP is answered but not handled even if it is the first to arrive (C76_lost_violated); everything else is proved not to be lost"
  },
  {
   "property": "C77",
   "status": "partial",
   "theorems": [
    "Mqrstt.Props.C77_answers_in_order_partial",
    "Mqrstt.Props.C77_release_order_violated"
   ],
   "note": "proved for every answer that run gives; PUBRELs that connect sends again go out in the order of their identifiers (C77_release_order_violated)"
  },
  {
   "property": "C78",
   "status": "partial",
   "theorems": [
    "Mqrstt.Props.C78_in_order_partial",
    "Mqrstt.Props.C78_in_order_smol",
    "Mqrstt.Props.C78_order_violated"
   ],
   "note": "proved for smol and for every history in which what is sent again is sent completely before anything else; tokio ignores write errors there and a later message can overtake (C78_order_violated)"
  },
  {
   "property": "C79",
   "status": "partial",
   "theorems": [
    "Mqrstt.Props.C79_whole_packets_partial",
    "Mqrstt.Props.C79_arrived_prefix_partial",
    "Mqrstt.Props.C79_tokio_violated",
    "Mqrstt.Props.C79_smol_violated",
    "Mqrstt.Props.C79_handler_violated",
    "Mqrstt.Props.C79_damage",
    "Mqrstt.Props.C79_new_connection",
    "Mqrstt.Props.C79_dropped_write_is_lost",
    "Mqrstt.Props.C79_dropped_handler"
   ],
   "note": "the bytes: proved as long as the future of run is not dropped while it writes, and at most as many packets are cut as writes were dropped; dropped in the middle of a write, tokio loses the packet and leaves a cut one on the connection, smol writes it twice; dropped in the handler, the answer is lost (C79_tokio_violated, C79_smol_violated, C79_handler_violated)"
  },
  {
   "property": "C80",
   "status": "partial",
   "theorems": [
    "Mqrstt.Props.C80_ping_pong_partial",
    "Mqrstt.Props.C80_ping_pong_violated",
    "Mqrstt.Props.C80_ping_resp"
   ],
   "note": "PingPong panics if its cut after ten bytes goes through a character, so that any such message ends run; it also panics when its counter overflows and when the answer is too large, which happens only if the server sends more than the client allows (C80_ping_pong_violated)"
  },
  {
   "property": "C81",
   "status": "partial",
   "theorems": [
    "Mqrstt.Props.C81_timer_partial",
    "Mqrstt.Props.C81_timer_violated"
   ],
   "note": "proved for intervals up to 65,535 s, the longest MQTT knows, as long as the clock has that much time left; set_keep_alive_interval takes any Duration, and with Duration::MAX run panics at once (C81_timer_violated)"
  },
  {
   "property": "C82",
   "status": "proved",
   "theorems": [
    "Mqrstt.Props.C82_dropped_is_failed",
    "Mqrstt.Props.C82_history",
    "Mqrstt.Props.C82_before_the_answer",
    "Mqrstt.Props.C82_after_the_answer"
   ],
   "note": "a history with dropped calls of connect ends in the same state, and looks the same from outside, as one in which they fail; what a failed connect costs is the subject of C36, C52 and C68"
  },
  {
   "property": "C83",
   "status": "partial",
   "theorems": [
    "Mqrstt.Props.C83_content_hidden_partial",
    "Mqrstt.Props.C83_password_violated"
   ],
   "note": "the text does not depend on payload, properties, last will and topic filters; violated for the password, which a CONNECT shows"
  },
  {
   "property": "C84",
   "status": "partial",
   "theorems": [
    "Mqrstt.Props.C84_one_line_partial",
    "Mqrstt.Props.C84_forged_line_violated"
   ],
   "note": "holds when topic and client identifier contain no line breaks; violated for a topic that contains one"
  },
  {
   "property": "C85",
   "status": "partial",
   "theorems": [
    "Mqrstt.Props.C85_reported_only_then_partial",
    "Mqrstt.Props.C85_then_reported_tokio_partial",
    "Mqrstt.Props.C85_then_reported_smol_partial",
    "Mqrstt.Props.C85_acknowledgement_ends_run_violated"
   ],
   "note": "the error is returned only when the clients are gone and the queue is drained, and then it is; violated when an acknowledgement arrives in between, which ends run with PacketIdChannelError"
  },
  {
   "property": "C86",
   "status": "partial",
   "theorems": [
    "Mqrstt.Props.C86_kept_partial",
    "Mqrstt.Props.C86_bounded_partial",
    "Mqrstt.Props.C86_bounded_violated"
   ],
   "note": "what is kept is exactly what follows the packets processed, and less than one packet when all whole packets have been processed; violated when reads bring more than one packet: one packet is processed per read, the rest piles up without limit"
  },
  {
   "property": "C87",
   "status": "proved",
   "theorems": [
    "Mqrstt.Props.C87_reused_last"
   ],
   "note": "for every history: between a point at which id is in use and other available, and a call receiving id, other has been handed out"
  },
  {
   "property": "C88",
   "status": "partial",
   "theorems": [
    "Mqrstt.Props.C88_recognised_partial",
    "Mqrstt.Props.C88_recognised_violated"
   ],
   "note": "proved for both networks on what is observed, except: PUBACK or PUBREC for a publish of the other QoS, PUBACK or PUBREC with an identifier that has no slot, and acknowledgements after the last client is gone; in each of these cases the property is violated (witnesses given)"
  },
  {
   "property": "C89",
   "status": "partial",
   "theorems": [
    "Mqrstt.Props.C89_silence_tokio_partial",
    "Mqrstt.Props.C89_silence_smol_partial",
    "Mqrstt.Props.C89_silence_tokio_violated",
    "Mqrstt.Props.C89_silence_smol_violated"
   ],
   "note": "proved for both networks: once a PINGREQ is unanswered for the interval the timer ends the run, whatever else is sent or received; violated in general: every packet the client sends postpones the PINGREQ, so a client that sends a QoS 0 message every 9 s with an interval of 10 s never pings and never notices (for every number of messages, both networks)"
  },
  {
   "property": "C90",
   "status": "partial",
   "theorems": [
    "Mqrstt.Props.C90_reconnect_tokio_partial",
    "Mqrstt.Props.C90_reconnect_smol_partial",
    "Mqrstt.Props.C90_reconnect_violated",
    "Mqrstt.Props.C90_dropped_tokio_partial",
    "Mqrstt.Props.C90_dropped_smol_partial"
   ],
   "note": "proved for both networks while a client exists and nothing has panicked (smol: for a CONNACK in good pieces, C51, and legal requests); violated after the last client is gone: with an unacknowledged SUBSCRIBE connect fails although the server accepted. The _dropped_ theorems say the same of histories with dropped futures"
  },
  {
   "property": "C91",
   "status": "proved",
   "theorems": [
    "Mqrstt.Props.C91_each_bounded",
    "Mqrstt.Props.C91_memory_bounded",
    "Mqrstt.Props.C91_tokio",
    "Mqrstt.Props.C91_smol"
   ],
   "note": "for every history of the session and of both networks: each collection and their sum is bounded by the options; counted in packets and identifiers, not in bytes (for the read buffer see C86); the futures of calls that wait belong to the user and are not counted"
  },
  {
   "property": "C92",
   "status": "proved",
   "theorems": [
    "Mqrstt.Props.C92_answers_complete",
    "Mqrstt.Props.C92_answer_exists",
    "Mqrstt.Props.C92_nothing_kept",
    "Mqrstt.Props.C92_completable"
   ],
   "note": "for every history of the session; answers a server owes are counted in Spec/Complete. Identifiers lost earlier (C23) stay lost; after the last client is gone see C85 and C88"
  },
  {
   "property": "C93",
   "status": "proved",
   "theorems": [
    "Mqrstt.Props.C93_flushed",
    "Mqrstt.Props.C93_kept"
   ],
   "note": ""
  },
  {
   "property": "C94",
   "status": "partial",
   "theorems": [
    "Mqrstt.Props.C94_own_connection_partial",
    "Mqrstt.Props.C94_own_connection_violated"
   ],
   "note": "proved: at most one run ended per disconnect call, and the call was made on this connection if every earlier one has ended a run; violated otherwise: a disconnect call made while there is no connection is accepted, and ends the next connection at once"
  },
  {
   "property": "C95",
   "status": "proved",
   "theorems": [
    "Mqrstt.Props.C95_connect_tokio",
    "Mqrstt.Props.C95_connect_smol",
    "Mqrstt.Props.C95_run_tokio",
    "Mqrstt.Props.C95_run_smol"
   ],
   "note": "panics of smol on fragmented packets are the subject of C45 and C51"
  },
  {
   "property": "C96",
   "status": "proved",
   "theorems": [
    "Mqrstt.Props.C96_no_aliases",
    "Mqrstt.Props.C96_topic_told"
   ],
   "note": "the client never announces aliases: there is no setter for it"
  },
  {
   "property": "C97",
   "status": "partial",
   "theorems": [
    "Mqrstt.Props.C97_at_most_once_partial",
    "Mqrstt.Props.C97_sent_twice_violated"
   ],
   "note": "proved for all histories in which no write is dropped half-way; dropped after the bytes and before the end of the flush, smol writes the message again (C97_sent_twice_violated)"
  },
  {
   "property": "C98",
   "status": "partial",
   "theorems": [
    "Mqrstt.Props.C98_nothing_resent_partial",
    "Mqrstt.Props.C98_unknown_session_violated"
   ],
   "note": "nothing is sent for the session; but the connection is used (C98_unknown_session_violated)"
  },
  {
   "property": "C99",
   "status": "proved",
   "theorems": [
    "Mqrstt.Props.C99_text_faithful",
    "Mqrstt.Props.C99_reason_named",
    "Mqrstt.Props.C99_message_read",
    "Mqrstt.Props.C99_connect_read",
    "Mqrstt.Props.C99_ack_read",
    "Mqrstt.Props.C99_connack_read"
   ],
   "note": "both directions; names compared with table 2-6 and section 4.3 of MQTT v5 but for spaces, hyphens and capitals; SUBSCRIBE, SUBACK, UNSUBSCRIBE, UNSUBACK and AUTH show only their type"
  },
  {
   "property": "C100",
   "status": "proved",
   "theorems": [
    "Mqrstt.Props.C100_answered_at_once"
   ],
   "note": "both networks"
  },
  {
   "property": "C101",
   "status": "partial",
   "theorems": [
    "Mqrstt.Props.C101_one_at_a_time_partial",
    "Mqrstt.Props.C101_packet_size_violated",
    "Mqrstt.Props.C101_receive_maximum_violated"
   ],
   "note": "QoS 1: never more than one unanswered message (C101_one_at_a_time_partial); neither limit is enforced: C101_packet_size_violated, C101_receive_maximum_violated"
  },
  {
   "property": "C102",
   "status": "partial",
   "theorems": [
    "Mqrstt.Props.C102_never_sent",
    "Mqrstt.Props.C102_received_partial",
    "Mqrstt.Props.C102_received_violated"
   ],
   "note": "sending: proved for both writers (C102_never_sent); receiving: the buffered CONNECT reader (C102_received_partial), all others accept such packets (C102_received_violated)"
  },
  {
   "property": "C103",
   "status": "proved",
   "theorems": [
    "Mqrstt.Props.C103_session_sound",
    "Mqrstt.Props.C103_ids_unique",
    "Mqrstt.Props.C103_written_once",
    "Mqrstt.Props.C103_dropped_is_over"
   ],
   "note": "both networks; what a dropped write does to the bytes on the wire is C79"
  },
  {
   "property": "C104",
   "status": "partial",
   "theorems": [
    "Mqrstt.Props.C104_processed_tokio_partial",
    "Mqrstt.Props.C104_processed_smol_partial",
    "Mqrstt.Props.C104_tokio_violated",
    "Mqrstt.Props.C104_smol_violated"
   ],
   "note": "tokio if no read is abandoned with bytes in hand, smol if the server goes on sending; C104_tokio_violated, C104_smol_violated: otherwise a packet can wait for ever"
  },
  {
   "property": "C105",
   "status": "partial",
   "theorems": [
    "Mqrstt.Props.C105_no_liberty",
    "Mqrstt.Props.C105_buffered_partial",
    "Mqrstt.Props.C105_streaming_partial",
    "Mqrstt.Props.C105_buffered_violated",
    "Mqrstt.Props.C105_streaming_violated"
   ],
   "note": "up to named liberties, none of which is idle (C105_buffered_violated, C105_streaming_violated): lengths in too many bytes, trailing bytes or wrong packet lengths, reserved bits, authentication data without method, subscription identifiers in SUBACK or repeated, over-long properties of publish acknowledgements; C105_no_liberty: without liberties the relation is the wire format of C59/C60"
  },
  {
   "property": "C106",
   "status": "partial",
   "theorems": [
    "Mqrstt.Props.C106_smol",
    "Mqrstt.Props.C106_tokio_partial",
    "Mqrstt.Props.C106_said_smol_partial",
    "Mqrstt.Props.C106_said_tokio_partial",
    "Mqrstt.Props.C106_processed_tokio_partial",
    "Mqrstt.Props.C106_processed_smol_partial",
    "Mqrstt.Props.C106_tokio_violated"
   ],
   "note": "smol: all conforming servers, no exception (C106_smol); tokio: but for reads abandoned with bytes in hand (C46) and the short forms in which the streaming reader reads on into the next packet, shown to lose messages (C106_tokio_violated); the processed packets are what the bytes say up to the liberties of C105"
  },
  {
   "property": "C107",
   "status": "proved",
   "theorems": [
    "Mqrstt.Props.C107_tokio",
    "Mqrstt.Props.C107_smol",
    "Mqrstt.Props.C107_goes_on"
   ],
   "note": ""
  },
  {
   "property": "C108",
   "status": "partial",
   "theorems": [
    "Mqrstt.Props.C108_tokio_partial",
    "Mqrstt.Props.C108_smol_partial",
    "Mqrstt.Props.C108_own_fault_violated"
   ],
   "note": "Missing: tokio histories in which a read was abandoned with bytes in hand, packets which the readers refuse (SUBACK with a reason string, the short forms of Misread), and smol with overflow checks; C108_own_fault_violated shows that the claim is false there. The conditions that a client is kept and that the send maximum does not exceed the receive maximum are needed because of C85 and C34."
  },
  {
   "property": "C109",
   "status": "partial",
   "theorems": [
    "Mqrstt.Props.C109_verdict_tokio_partial",
    "Mqrstt.Props.C109_verdict_smol_partial",
    "Mqrstt.Props.C109_own_fault_violated",
    "Mqrstt.Props.C109_dropped_tokio_partial",
    "Mqrstt.Props.C109_dropped_smol_partial"
   ],
   "note": "Missing: on smol the ways of splitting the CONNACK that are not good (C51); on tokio a failed retransmission is not noticed at once (C52); both after the last client is gone (C90). C109_own_fault_violated has a witness for each. C109_dropped_tokio_partial and C109_dropped_smol_partial say the same after histories in which the futures of run and connect were dropped anywhere."
  },
  {
   "property": "C110",
   "status": "partial",
   "theorems": [
    "Mqrstt.Props.C110_buffered_partial",
    "Mqrstt.Props.C110_streaming_partial",
    "Mqrstt.Props.C110_buffered_violated",
    "Mqrstt.Props.C110_streaming_violated"
   ],
   "note": "Missing: the slips named in Spec.BufferSlip and Spec.StreamSlip, each of which is shown to happen in C110_buffered_violated or C110_streaming_violated. Malformed-packet errors carry no detail and are not judged, except for the fixed header; of an unknown QoS it is only claimed that it is greater than 2."
  },
  {
   "property": "C111",
   "status": "partial",
   "theorems": [
    "Mqrstt.Props.C111_smol_as_tokio_partial",
    "Mqrstt.Props.C111_tokio_as_smol_partial",
    "Mqrstt.Props.C111_smol_as_tokio_violated",
    "Mqrstt.Props.C111_tokio_as_smol_violated"
   ],
   "note": "Missing: a keep-alive of 0 (from smol to tokio) or one set by the server, a dropped run, a panic, servers that send what is no MQTT or what the readers refuse, and from tokio to smol also reads given up with bytes in hand and resends that break off half way. C111_smol_as_tokio_violated and C111_tokio_as_smol_violated show that it is false without the conditions on keep-alive, dropped runs and the server."
  },
  {
   "property": "C112",
   "status": "partial",
   "theorems": [
    "Mqrstt.Props.C112_reason_tokio_partial",
    "Mqrstt.Props.C112_reason_smol_partial",
    "Mqrstt.Props.C112_connect_tokio_partial",
    "Mqrstt.Props.C112_connect_smol_partial",
    "Mqrstt.Props.C112_reason_violated"
   ],
   "note": "Missing: with tokio, decoding errors after a read was given up with bytes in hand; with smol, connect reports an answer that is no packet as an I/O error; and the decoding errors that C110 shows to be wrong. C112_reason_violated shows that it is false in these cases."
  },
  {
   "property": "C113",
   "status": "partial",
   "theorems": [
    "Mqrstt.Props.C113_refused_call_partial",
    "Mqrstt.Props.C113_waiting_call",
    "Mqrstt.Props.C113_size_violated"
   ],
   "note": "Missing: the number in the error for a packet that is too large is its size without the first byte and the length; C113_size_violated shows this."
  },
  {
   "property": "C114",
   "status": "partial",
   "theorems": [
    "Mqrstt.Props.C114_connection_errors",
    "Mqrstt.Props.C114_client_errors",
    "Mqrstt.Props.C114_connection_errors_say",
    "Mqrstt.Props.C114_client_errors_say",
    "Mqrstt.Props.C114_session_errors_partial",
    "Mqrstt.Props.C114_text_violated"
   ],
   "note": "Missing: the text of HandlerError::Unsolicited leaves out the type of the acknowledgement, and the text for a packet that is too large gives its size as what is allowed; C114_text_violated shows both. The text of a packet in NotConnAck is not modelled."
  },
  {
   "property": "C115",
   "status": "partial",
   "theorems": [
    "Mqrstt.Props.C115_accepted",
    "Mqrstt.Props.C115_refused_partial",
    "Mqrstt.Props.C115_network_gone",
    "Mqrstt.Props.C115_waiting_calls_return",
    "Mqrstt.Props.C115_too_large_violated"
   ],
   "note": "Missing: packets that are up to five bytes too large and disconnects, which are not checked; C115_too_large_violated shows both. The rest is proved in full: C115_accepted, C115_network_gone, C115_waiting_calls_return."
  },
  {
   "property": "C116",
   "status": "partial",
   "theorems": [
    "Mqrstt.Props.C116_no_dead_end_tokio_partial",
    "Mqrstt.Props.C116_no_dead_end_smol_partial",
    "Mqrstt.Props.C116_no_dead_end_violated",
    "Mqrstt.Props.C116_dropped_tokio_partial",
    "Mqrstt.Props.C116_dropped_smol_partial"
   ],
   "note": "Proved for legal calls and options with a send maximum of at most the receive maximum, while a client exists. Missing: packets that have no encoding, which are never written (C116_no_dead_end_violated). Subscriptions that were not answered are forgotten when the client connects again. The _dropped_ theorems say the same of histories in which the futures of run and connect were dropped anywhere, without the observer's account of acknowledgements."
  },
  {
   "property": "C117",
   "status": "partial",
   "theorems": [
    "Mqrstt.Props.C117_tokio_partial",
    "Mqrstt.Props.C117_tokio_never_partial",
    "Mqrstt.Props.C117_smol_partial",
    "Mqrstt.Props.C117_no_panic_violated",
    "Mqrstt.Props.C117_own_publish_violated",
    "Mqrstt.Props.C117_tokio_dropped_partial",
    "Mqrstt.Props.C117_tokio_never_dropped_partial",
    "Mqrstt.Props.C117_smol_dropped_partial",
    "Mqrstt.Props.C117_smol_connect_partial"
   ],
   "note": "Violated; proved: exactly which steps panic in run on both runtimes, that connect does not panic on tokio, and in exactly which pieces an answer makes it panic on smol (C117_smol_connect_partial), so only if the first piece does not hold a whole packet or holds a CONNECT cut short. With a send maximum of at most the receive maximum and a server that acknowledges no impossible identifier, tokio never panics (C117_tokio_never_partial). Panics of the timer: C81. The _dropped_ theorems say the same after histories in which futures were dropped anywhere (for smol: connect)."
  },
  {
   "property": "C118",
   "status": "proved",
   "theorems": [
    "Mqrstt.Props.C118_any_order"
   ],
   "note": "About the session without the byte streams; that the networks hand over the packets in the order they arrive is C44 and C46."
  },
  {
   "property": "C119",
   "status": "proved",
   "theorems": [
    "Mqrstt.Props.C119_content_does_not_matter"
   ],
   "note": "About the session, the clients and the queue. How content is encoded and decoded is C08-C13 and C60."
  },
  {
   "property": "C120",
   "status": "proved",
   "theorems": [
    "Mqrstt.Props.C120_tokio",
    "Mqrstt.Props.C120_smol",
    "Mqrstt.Props.C120_tokio_dropped",
    "Mqrstt.Props.C120_smol_dropped"
   ],
   "note": "Both networks. Instants have no upper limit here; the panic at the end of the clock is C81. Also for histories in which the futures of run and connect are dropped anywhere (C120_tokio_dropped, C120_smol_dropped)."
  },
  {
   "property": "C121",
   "status": "proved",
   "theorems": [
    "Mqrstt.Props.C121_tokio",
    "Mqrstt.Props.C121_smol",
    "Mqrstt.Props.C121_tokio_dropped",
    "Mqrstt.Props.C121_smol_dropped"
   ],
   "note": "Both networks. Both CONNECTs must be encodable; otherwise connect fails for the one and not for the other. The topic alias maximum and the session expiry are in the list because the client itself makes no use of them. Also for histories in which the futures of run and connect are dropped anywhere (C121_tokio_dropped, C121_smol_dropped)."
  },
  {
   "property": "C122",
   "status": "partial",
   "theorems": [
    "Mqrstt.Props.C122_smol_partial",
    "Mqrstt.Props.C122_smol_violated",
    "Mqrstt.Props.C122_smol_dropped_partial"
   ],
   "note": "False as a whole: a publish whose last byte arrives later makes the debug build panic while the release build delivers it (C122_smol_violated). Proved: every history in which the debug build does not panic looks the same in the release build. On tokio the two builds differ nowhere in the model: its reader does no such subtraction. C122_smol_dropped_partial says it of histories with dropped futures, and of the bytes on the wire."
  },
  {
   "property": "C123",
   "status": "proved",
   "theorems": [
    "Mqrstt.Props.C123_tokio",
    "Mqrstt.Props.C123_smol",
    "Mqrstt.Props.C123_tokio_dropped",
    "Mqrstt.Props.C123_smol_dropped"
   ],
   "note": "Both networks; the other options may differ too (as in C121). Both CONNECTs must be encodable. Also for histories in which the futures of run and connect are dropped anywhere (C123_tokio_dropped, C123_smol_dropped)."
  },
  {
   "property": "C124",
   "status": "proved",
   "theorems": [
    "Mqrstt.Props.C124_tokio",
    "Mqrstt.Props.C124_smol",
    "Mqrstt.Props.C124_tokio_dropped",
    "Mqrstt.Props.C124_smol_dropped"
   ],
   "note": "Both networks, also where the futures of run and connect are dropped anywhere; the options that C121 speaks of may differ too. Both CONNECTs must be encodable."
  }
 ]
}