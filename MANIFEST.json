{
 "claims": [
  {
   "property": "C01",
   "status": "proved",
   "theorems": [
    "Verif.C01_message_round_trip",
    "Verif.C01_registered_round_trip",
    "Verif.C01_registered_encrypted"
   ],
   "note": "Envelope for any body codec that encodes into at most 1023 bytes and decodes again, any terminal number of 1-12 digits; instantiated for all registered bodies, in the clear (C01_registered_round_trip) and encrypted with a 1024-bit key pair, up to 602 bytes (C01_registered_encrypted)."
  },
  {
   "property": "C02",
   "status": "proved",
   "theorems": [
    "Verif.C02_frame_layout",
    "Verif.C02_header_layout",
    "Verif.C02_property_bits",
    "Verif.C02_delimiters",
    "Verif.C02_content_unique"
   ],
   "note": "Layout, delimiters, uniqueness of the content."
  },
  {
   "property": "C03",
   "status": "proved",
   "theorems": [
    "Verif.C03_altered_content_rejected",
    "Verif.C03_accepts_only_matching_check_byte"
   ],
   "note": "Acceptance implies matching check byte for any input; every one-byte change of the content is rejected."
  },
  {
   "property": "C04",
   "status": "partial",
   "theorems": [
    "Verif.C04_refuted",
    "Verif.C04_only_escape_changes_pass_partial",
    "Verif.C04_no_wrong_body_partial",
    "Verif.C04_escape_changes_pass",
    "Verif.C04_exact_partial",
    "Verif.C04_registered_ids_plain",
    "Verif.C04_registered_no_wrong_body_partial",
    "Verif.C04_served_partial",
    "Verif.C04_stored_partial",
    "Verif.C04_split_partial",
    "Verif.C04_lost_end_partial",
    "Verif.C04_stream_partial",
    "Verif.C04_registered_stream_partial"
   ],
   "note": "False of the code as stated (C04_refuted: 7d of an escape sequence replaced by 7c). Proved: these are the only changes that pass, and even then no body is delivered. C04_escape_changes_pass: conversely, all such changes in the body of any message pass, and the header is delivered without the body. C04_exact_partial: a change of one byte leaves a frame with the right check byte if and only if it is one of these. C04_stream_partial: one changed byte anywhere in a whole stream, delimiters included: before the first error, the i-th message delivered is the i-th sent or has no body (C04_split_partial, C04_lost_end_partial for bytes that become or stop being delimiters). C04_served_partial: the same for a server with any handlers, over a whole session. C04_stored_partial: no changed byte gets into a stored part of an upload."
  },
  {
   "property": "C05",
   "status": "partial",
   "theorems": [
    "Verif.C05_registered_panics_iff_partial",
    "Verif.C05_decode_panics_iff_partial",
    "Verif.C05_refuted"
   ],
   "note": "False of the code (C05_refuted: 7e x 7e). Proved: these three-byte inputs are the only ones that panic."
  },
  {
   "property": "C06",
   "status": "partial",
   "theorems": [
    "Verif.C06_too_long_iff_partial",
    "Verif.C06_limit_below_64k_partial",
    "Verif.C06_refuted",
    "Verif.C06_never_received_partial"
   ],
   "note": "False of the code from 65536 bytes on (C06_refuted). Proved exactly: the length modulo 65536 is compared; correct below 65536. C06_never_received_partial: the bodies above the limit that are not refused are never received; a receiver of this package reports an error."
  },
  {
   "property": "C07",
   "status": "proved",
   "theorems": [
    "Verif.C07_header_round_trip",
    "Verif.C07_bad_number_rejected",
    "Verif.C07_good_number_accepted"
   ],
   "note": "Round trip and exact acceptance condition of the number field."
  },
  {
   "property": "C08",
   "status": "partial",
   "theorems": [
    "Verif.C08_number_preserved_iff_partial",
    "Verif.C08_refuted"
   ],
   "note": "False of the code for 0 and for more than 12 digits (C08_refuted). Proved: exactly the numbers 1..999999999999 are preserved."
  },
  {
   "property": "C09",
   "status": "proved",
   "theorems": [
    "Verif.C09_setting_changes_only_its_field",
    "Verif.C09_settings_history",
    "Verif.C09_large_size_refused"
   ],
   "note": "Simulation of every sequence of settings."
  },
  {
   "property": "C10",
   "status": "proved",
   "theorems": [
    "Verif.C10_header_always_delivered",
    "Verif.C10_encrypted_bodies"
   ],
   "note": "For any body codec; encrypted bodies are described separately."
  },
  {
   "property": "C11",
   "status": "proved",
   "theorems": [
    "Verif.C11_body_type_matches_header",
    "Verif.C11_assertion_general_answer",
    "Verif.C11_id_determines_type"
   ],
   "note": "For every input and the whole registry."
  },
  {
   "property": "C12",
   "status": "proved",
   "theorems": [
    "Verif.C12_served",
    "Verif.C12_reassembly",
    "Verif.C12_cut_anywhere",
    "Verif.C12_same_for_all_pieces",
    "Verif.C12_end_to_end"
   ],
   "note": "Any frames, any split into reads; the connection may break at any byte; and end to end from Send to Receive for all registered bodies (C12_same_for_all_pieces: the result is the same for all splits). C12_served: the messages a server with any handlers receives over a whole session are those sent."
  },
  {
   "property": "C13",
   "status": "proved",
   "theorems": [
    "Verif.C13_long_frame",
    "Verif.C13_well_formed",
    "Verif.C13_never_too_long",
    "Verif.C13_any_traffic",
    "Verif.C13_limit"
   ],
   "note": "Well-formed and arbitrary traffic; the 65535 limit itself. C13_long_frame: a frame of more than 65535 bytes is an error however it arrives."
  },
  {
   "property": "C14",
   "status": "proved",
   "theorems": [
    "Verif.C14_missing_prefix",
    "Verif.C14_bad_frame",
    "Verif.C14_every_stream_parses",
    "Verif.C14_resynchronisation"
   ],
   "note": "For every byte stream with frames up to 65408 bytes (longer ones run into the buffer limit of C13); frames that make Decode panic (C05) are excluded."
  },
  {
   "property": "C15",
   "status": "proved",
   "theorems": [
    "Verif.C15_decode_never_panics",
    "Verif.C15_message_body_never_panics",
    "Verif.C15_extra_never_panics",
    "Verif.C15_param_getters_never_panic"
   ],
   "note": "All 65 registered body types, the extras and the parameter getters."
  },
  {
   "property": "C16",
   "status": "partial",
   "theorems": [
    "Verif.C16_exact",
    "Verif.C16_fits_partial",
    "Verif.C16_body_round_trip_partial",
    "Verif.C16_body_round_trip_exact_partial",
    "Verif.C16_refuted"
   ],
   "note": "C16_exact: a body of any of the 65 registered types comes back if and only if it fits (Spec.BodyFits); the sufficient direction, C16_fits_partial, without assumption, the necessary one under Spec.Codecs (behaviour of the GB18030 and gzip libraries on truncated bytes) and for extras that an application can construct. Decimals are compared as digits and exponent; by value see C20. False of the code for some values a user would take to be in range (C16_refuted: empty lists, empty authentication key), which the decoders' minimum lengths reject."
  },
  {
   "property": "C17",
   "status": "partial",
   "theorems": [
    "Verif.C17_resend_request",
    "Verif.C17_ids",
    "Verif.C17_delete_routes",
    "Verif.C17_media_resend",
    "Verif.C17_media_ids",
    "Verif.C17_params",
    "Verif.C17_params_answer",
    "Verif.C17_events",
    "Verif.C17_contacts",
    "Verif.C17_lists_within_limits_partial",
    "Verif.C17_refuted",
    "Verif.C17_long_lists_partial",
    "Verif.C17_menus",
    "Verif.C17_refuted_messages"
   ],
   "note": "False of the code (C17_refuted: 256 or 65536 items lose the whole list silently). Proved exactly what the peer receives for every list length: the first (length mod 256 or 65536) items. For whole messages: resend requests, events, menus and phone books that are too long for their count arrive shortened (C17_refuted_messages); all other lists are then too long for a message too and never arrive shortened (C17_long_lists_partial)."
  },
  {
   "property": "C18",
   "status": "proved",
   "theorems": [
    "Verif.C18_known_items_in_order",
    "Verif.C18_encode_appends_items",
    "Verif.C18_wrong_length_is_error"
   ],
   "note": "Any mixture of known and unknown items in any order; wrong-length items are errors."
  },
  {
   "property": "C19",
   "status": "partial",
   "theorems": [
    "Verif.C19_exact_partial",
    "Verif.C19_refuted",
    "Verif.C19_forward_without_extras_partial"
   ],
   "note": "False of the code for every report with at least one extra (C19_refuted: the encoder appends nothing that was decoded). Proved for reports without extras. C19_exact_partial puts both together as an equivalence."
  },
  {
   "property": "C20",
   "status": "proved",
   "theorems": [
    "Verif.C20_any_status",
    "Verif.C20_coordinates_exact"
   ],
   "note": "Any decimal coordinate whose millionths fit 32 bits, truncated towards zero, with sign; status bits other than the hemisphere bits unchanged. C20_any_status: exactly what is read back for any status word given by the caller."
  },
  {
   "property": "C21",
   "status": "partial",
   "theorems": [
    "Verif.C21_circles",
    "Verif.C21_rectangles_exact",
    "Verif.C21_rectangles_partial",
    "Verif.C21_polygons_exact",
    "Verif.C21_polygons_partial",
    "Verif.C21_routes",
    "Verif.C21_refuted",
    "Verif.C21_polygon_refuted"
   ],
   "note": "Proved for circles and routes, and for rectangles and polygons that stay on one side of equator and meridian. False of the code for those that cross (C21_refuted, C21_polygon_refuted). C21_rectangles_exact and C21_polygons_exact say for every list of areas what is read back, and that it is the same exactly when no vertex lies on the other side."
  },
  {
   "property": "C22",
   "status": "partial",
   "theorems": [
    "Verif.C22_time_round_trip_partial",
    "Verif.C22_refuted",
    "Verif.C22_time_layout",
    "Verif.C22_accepts_iff",
    "Verif.C22_exact"
   ],
   "note": "False of the code for 2000-2009 (C22_refuted: every such time encodes but does not decode). C22_exact: for every fixed UTC offset, exactly the times from 2010 to 2099 are read back; the calendar is checked against a day-by-day calendar. C22_accepts_iff: the decoder accepts exactly the encodings of the times from 2010 to 2099."
  },
  {
   "property": "C23",
   "status": "partial",
   "theorems": [
    "Verif.C23_can_time_round_trip_partial",
    "Verif.C23_refuted",
    "Verif.C23_exact"
   ],
   "note": "False of the code below one hour and at 24 hours (C23_refuted). C23_exact: exactly the durations from one hour to below 24 hours are read back."
  },
  {
   "property": "C24",
   "status": "proved",
   "theorems": [
    "Verif.C24_fits",
    "Verif.C24_registration",
    "Verif.C24_attributes",
    "Verif.C24_upgrade",
    "Verif.C24_texts"
   ],
   "note": "Fixed-width fields of 0x0100, 0x0107, 0x8108 with any strings, on the wire and as seen by the receiver; text fields through the text laws of the GB18030 assumption."
  },
  {
   "property": "C25",
   "status": "proved",
   "theorems": [
    "Verif.C25_set_get",
    "Verif.C25_width",
    "Verif.C25_narrow_then_wide",
    "Verif.C25_on_the_wire"
   ],
   "note": "All setters and getters, widths, ids, and the way over the wire (0x8103, 0x0104). SetString assumes the text law of GB18030."
  },
  {
   "property": "C26",
   "status": "proved",
   "theorems": [
    "Verif.C26_get_byte",
    "Verif.C26_get_uint16",
    "Verif.C26_get_uint32",
    "Verif.C26_get_beyond_width",
    "Verif.C26_set_byte",
    "Verif.C26_set_uint16",
    "Verif.C26_set_uint32",
    "Verif.C26_negative_offset_panics"
   ],
   "note": "Byte, 16-bit and 32-bit helpers; negative offsets panic."
  },
  {
   "property": "C27",
   "status": "proved",
   "theorems": [
    "Verif.C27_split",
    "Verif.C27_encrypt_decrypt"
   ],
   "note": "Splitting for any data and limit; decryption under the stated assumption on RSA-OAEP."
  },
  {
   "property": "C28",
   "status": "partial",
   "theorems": [
    "Verif.C28_never_received_partial",
    "Verif.C28_limit_1024_bit_exact_partial",
    "Verif.C28_encrypted_round_trip",
    "Verif.C28_limit_partial",
    "Verif.C28_limit_1024_bit_partial",
    "Verif.C28_refuted"
   ],
   "note": "Round trip, missing key and failing key proved. The 602-byte limit is false of the code for bodies above 43946 bytes (C28_refuted: the cipher length wraps); proved exactly below. C28_limit_1024_bit_exact_partial: exactly which lengths are refused; C28_never_received_partial: the others above the limit are never received."
  },
  {
   "property": "C29",
   "status": "proved",
   "theorems": [
    "Verif.C29_sequence",
    "Verif.C29_range",
    "Verif.C29_distinct",
    "Verif.C29_own_number"
   ],
   "note": "Load and compare-and-swap are separate steps of any number of goroutines; sync/atomic is assumed sequentially consistent."
  },
  {
   "property": "C30",
   "status": "proved",
   "theorems": [
    "Verif.C30_refines_table",
    "Verif.C30_answer",
    "Verif.C30_at_most_once",
    "Verif.C30_own_serial",
    "Verif.C30_answers_recognised"
   ],
   "note": "Refinement to a table with one pending request per message id under every schedule; a callback runs once per returned request at most, only for its serial number. Type assertions in message() cannot panic for decoded messages."
  },
  {
   "property": "C31",
   "status": "partial",
   "theorems": [
    "Verif.C31_in_handlers_partial",
    "Verif.C31_answer_runs_callback_partial",
    "Verif.C31_first_255_partial",
    "Verif.C31_exact_partial",
    "Verif.C31_refuted",
    "Verif.C31_free_partial"
   ],
   "note": "False of the code (C31_refuted: the answer arrives between Send and addRequestContext). C31_exact_partial: from any point at which the session is at rest and for the next 255 messages, an answer runs exactly the callback of the waiting request. Proved also for answers after Request returned, not replaced, with a unique serial number. C31_in_handlers_partial: for requests made by handlers and callbacks the answer cannot come too early. C31_free_partial: the same exact statement for sessions of any length in which every number is handed out only while it is not in use (the call that had it has returned, its request was answered or replaced)."
  },
  {
   "property": "C32",
   "status": "proved",
   "theorems": [
    "Verif.C32_end_to_end",
    "Verif.C32_each_once_in_order",
    "Verif.C32_last_registered_handler",
    "Verif.C32_unsupported",
    "Verif.C32_frames"
   ],
   "note": "The receive loop is a state machine over received messages and the steps of other goroutines; C32_end_to_end goes from the messages a terminal sends to the handlers, and C32_frames from any frames on the wire (also ones this library would not write) to the handlers and the refusals. Parts of uploads are covered by C41 and C43."
  },
  {
   "property": "C33",
   "status": "partial",
   "theorems": [
    "Verif.C33_refuted",
    "Verif.C33_handled_message_partial",
    "Verif.C33_exact_partial",
    "Verif.C33_restart_before_handler_partial"
   ],
   "note": "False of the code: messages without registered handler, undecodable ones and parts of an upload do not restart the period (C33_refuted). Proved exactly when a message restarts it: a handler is registered for its id, it has a body, and it is no part of an unfinished upload (C33_exact_partial); nothing else restarts it."
  },
  {
   "property": "C34",
   "status": "partial",
   "theorems": [
    "Verif.C34_exact_partial",
    "Verif.C34_refines",
    "Verif.C34_removed_never_fires",
    "Verif.C34_fires_at_new_deadline_partial",
    "Verif.C34_refuted"
   ],
   "note": "For every sequential history of Update, Remove, SetExpiration and ticks over any key type; the queue is modelled down to container/heap's swaps and the Index fields. Clock readings are arbitrary integers, and their sum with the period wraps around as an int64. Refuted in full: if the sum does not fit 64 bits, the key fires at the next tick. Proved: everything else, with the deadline as a number of 64 bits, and that it is the end of the period for all sums that fit. C34_exact_partial: the key fires when it should, whenever the next tick comes, if and only if the sum fits 64 bits."
  },
  {
   "property": "C35",
   "status": "partial",
   "theorems": [
    "Verif.C35_one_updater_partial",
    "Verif.C35_any_schedule",
    "Verif.C35_never_early",
    "Verif.C35_refuted",
    "Verif.C35_apart_partial",
    "Verif.C35_exact_partial"
   ],
   "note": "Proved for all schedules in which each key is updated by one goroutine (as the server does), and for arbitrary schedules that no call panics, that the timer is a bag of countdowns, and that no key fires before the deadline of some Update call. C35_exact_partial says exactly which schedules are right whoever updates what: the timer fires what it should, now and at whatever time the next tick comes, if and only if no Update started its countdown while one was running for its key. Refuted in general: two overlapping Updates of one key leave an orphaned element that fires early (C35_refuted)."
  },
  {
   "property": "C36",
   "status": "partial",
   "theorems": [
    "Verif.C36_schedules_run",
    "Verif.C36_registry",
    "Verif.C36_open_found",
    "Verif.C36_closed_not_found_partial",
    "Verif.C36_distinct",
    "Verif.C36_refuted",
    "Verif.C36_exact_partial",
    "Verif.C36_in_handlers"
   ],
   "note": "Exact characterisation of GetSession for every schedule; refuted in full: a session closed by another goroutine between its registration and AddCloseCallback stays registered for ever. Proved for sessions whose close callback is in place before Close takes effect; C36_in_handlers: a running handler finds its session unless it was closed. C36_exact_partial: a registered session whose close has completed is forgotten if and only if its close callback was in place when the closing goroutine ended; otherwise it is found for ever."
  },
  {
   "property": "C37",
   "status": "partial",
   "theorems": [
    "Verif.C37_at_most_once",
    "Verif.C37_closed_once",
    "Verif.C37_exactly_once_partial",
    "Verif.C37_completes_partial",
    "Verif.C37_not_registered",
    "Verif.C37_no_timer_entry_partial",
    "Verif.C37_refuted",
    "Verif.C37_refuted_timer",
    "Verif.C37_stale_entry_harmless",
    "Verif.C37_exact_partial"
   ],
   "note": "At most once for every schedule; exactly once, and unregistered, if the close callback is in place before Close takes effect. Refuted in full: a session closed earlier never gets its close handler, and a session closed while it dispatches a message can keep a (harmless) timer entry. C37_exact_partial: when a close has completed, the close handler has run once if and only if the close callback was in place when the closing goroutine ended; otherwise it never runs."
  },
  {
   "property": "C38",
   "status": "proved",
   "theorems": [
    "Verif.C38_broadcast"
   ],
   "note": "For every reachable registry, iteration order and pattern of send failures."
  },
  {
   "property": "C39",
   "status": "proved",
   "theorems": [
    "Verif.C39_merge",
    "Verif.C39_stray_file_merged"
   ],
   "note": "Any interleaving with other uploads, any order and retransmissions, on the model of the directory per terminal; file names and the walk over the directory are modelled byte by byte."
  },
  {
   "property": "C40",
   "status": "proved",
   "theorems": [
    "Verif.C40_full_iff_all_stored",
    "Verif.C40_isolation",
    "Verif.C40_torn_write",
    "Verif.C40_stray_file"
   ],
   "note": "IsFull is exact for histories without broken-off writes of that upload (C40_torn_write shows a broken-off, refused part counts as stored), and other uploads never matter, even failing ones."
  },
  {
   "property": "C41",
   "status": "partial",
   "theorems": [
    "Verif.C41_refuted",
    "Verif.C41_refuted_once",
    "Verif.C41_not_before_last_part",
    "Verif.C41_last_part_last_partial",
    "Verif.C41_exact",
    "Verif.C41_count",
    "Verif.C41_delivered_iff"
   ],
   "note": "False of the code when the part with the highest number does not arrive last, or arrives again (C41_refuted, C41_refuted_once). Proved exactly what is delivered in every history (C41_exact), how often (C41_count: as often as the last-numbered part arrives after all the others) and when at all (C41_delivered_iff); in particular never before that part, and exactly once with the joined contents if it arrives last."
  },
  {
   "property": "C42",
   "status": "partial",
   "theorems": [
    "Verif.C42_second_upload_partial",
    "Verif.C42_exact",
    "Verif.C42_right_iff",
    "Verif.C42_refuted"
   ],
   "note": "False in general, see C42_refuted: stale parts and an untruncated merged file. C42_exact: what is delivered after any history of calls; C42_right_iff: exactly when a later upload delivers its own content."
  },
  {
   "property": "C43",
   "status": "partial",
   "theorems": [
    "Verif.C43_replies_partial",
    "Verif.C43_refuted",
    "Verif.C43_exact_partial"
   ],
   "note": "Proved: each part is answered exactly once, according to whether it was stored. False for the completing part when merging fails (C43_refuted), and only then (C43_exact_partial)."
  },
  {
   "property": "C44",
   "status": "partial",
   "theorems": [
    "Verif.C44_not_full_partial",
    "Verif.C44_exact",
    "Verif.C44_refuted"
   ],
   "note": "False when the terminal's directory does not exist: IsFull panics (C44_refuted). C44_exact: what IsFull does after any history of calls."
  },
  {
   "property": "C45",
   "status": "partial",
   "theorems": [
    "Verif.C45_never_encrypted",
    "Verif.C45_refuted",
    "Verif.C45_codec_encrypts_partial"
   ],
   "note": "False of the code for every message (C45_never_encrypted, C45_refuted): Session.Send builds a header without the encryption flag, so the codec ignores the key. Proved: the codec encrypts messages whose header has the flag."
  },
  {
   "property": "C46",
   "status": "proved",
   "theorems": [
    "Verif.C46_message_sent",
    "Verif.C46_reply_content",
    "Verif.C46_reply_on_the_wire"
   ],
   "note": "Every schedule with other senders and the receive goroutine in between; also on the wire, as decoded by the terminal."
  },
  {
   "property": "C47",
   "status": "partial",
   "theorems": [
    "Verif.C47_decode_into_used_value_partial",
    "Verif.C47_refuted",
    "Verif.C47_exact",
    "Verif.C47_covers_all",
    "Verif.C47_right_iff"
   ],
   "note": "False of the code for fifteen types (C47_refuted). Proved for all others. C47_exact says for every type, every used value and every byte string what results: the same refusal or count, and the fresh value with what Spec.carried keeps of the old one; C47_right_iff says when that is the fresh value."
  },
  {
   "property": "C48",
   "status": "partial",
   "theorems": [
    "Verif.C48_exact",
    "Verif.C48_right_iff",
    "Verif.C48_consumed_all_partial",
    "Verif.C48_consumed_location_partial",
    "Verif.C48_refuted"
   ],
   "note": "False of the code for location reports with additional items and for seven types that report one byte too few (C48_refuted). C48_exact gives the reported count for every byte string accepted as a body of any message; C48_right_iff says for which encoded bodies it is the number of bytes."
  },
  {
   "property": "C49",
   "status": "proved",
   "theorems": [
    "Verif.C49_decoded_messages_are_delivered",
    "Verif.C49_panics_make_no_difference",
    "Verif.C49_loop_goes_on"
   ],
   "note": "Runs with panicking and with returning user code are equal, and no history of decoded messages crashes the loop. The close handler is covered by C37."
  },
  {
   "property": "C50",
   "status": "partial",
   "theorems": [
    "Verif.C50_early_exact_partial",
    "Verif.C50_expiry",
    "Verif.C50_never_early_partial",
    "Verif.C50_only_expired",
    "Verif.C50_closed_after_period_partial",
    "Verif.C50_expired_closed",
    "Verif.C50_silent_closed",
    "Verif.C50_refuted_overflow",
    "Verif.C50_refuted"
   ],
   "note": "Expiry at a tick is characterised exactly and is never early; every expired session is closed, and so is every session whose last restart is a period ago at a tick. Refuted in full: a message dispatched between the tick and the close does not save the session, and if the clock and the period do not fit 64 bits together every tick closes the session. C50_early_exact_partial: if the clock does not go back, the keepalive closes a session too early exactly if a message was dispatched between the tick that found it expired and the close."
  },
  {
   "property": "C51",
   "status": "partial",
   "theorems": [
    "Verif.C51_no_crash_partial",
    "Verif.C51_refuted",
    "Verif.C51_crashes_iff_partial",
    "Verif.C51_crash_needs_partial",
    "Verif.C51_crash_suffices_partial",
    "Verif.C51_one_byte_exact_partial",
    "Verif.C51_served_exact_partial",
    "Verif.C51_refuted_one_byte",
    "Verif.C51_all_connections_partial",
    "Verif.C51_refuted_all_connections",
    "Verif.C51_whole_server_partial"
   ],
   "note": "False of the code (C51_refuted: 7e 00 7e on a fresh connection; C51_refuted_all_connections: it ends the service for all connections). Proved: no crash without a single byte between two delimiters, for one connection, for any schedule of many loops and for any schedule of the whole server. Exactly which streams crash the server, for streams of frames (C51_crashes_iff_partial) and for arbitrary streams (C51_crash_needs_partial, C51_crash_suffices_partial: messages, then 7e x 7e; frames of 65409 to 65535 bytes before depend on the pieces). C51_refuted_one_byte: in every message there is a byte that crashes the server if it changes to 7e on the way. C51_one_byte_exact_partial: no other change of one byte of a stream of messages does. C51_served_exact_partial: the same for a server with any handlers."
  },
  {
   "property": "C52",
   "status": "proved",
   "theorems": [
    "Verif.C52_body_written",
    "Verif.C52_body_read",
    "Verif.C52_message_written",
    "Verif.C52_message_read"
   ],
   "note": "Spec/Layout.lean gives the bytes of every body type field by field; encoder, decoder and whole frames are compared with it over the ranges of Spec/Ranges.lean. The tables repeat what the Go structures document; where the code itself departs from the published standard (see DESIGN.md, findings) the table follows the code."
  },
  {
   "property": "C53",
   "status": "partial",
   "theorems": [
    "Verif.C53_refuted",
    "Verif.C53_same_bytes_partial",
    "Verif.C53_media",
    "Verif.C53_same_frame_partial",
    "Verif.C53_exact_partial"
   ],
   "note": "False for media messages (0x0801): Encode consumes the reader that holds the content, so later encodings carry none of it (C53_refuted, C53_media gives the exact bytes). Proved for every other type, for any number of repetitions and for whole messages without encryption. With encryption the ciphertext is randomised. C53_exact_partial: the bytes are the same for any number of repetitions if and only if the body is not a media message with content."
  },
  {
   "property": "C54",
   "status": "partial",
   "theorems": [
    "Verif.C54_refuted",
    "Verif.C54_journey_partial",
    "Verif.C54_exact",
    "Verif.C54_right_iff"
   ],
   "note": "False: Encode sets the hemisphere bits in the status word of the object and never clears them, so after a negative coordinate positive ones are reported negative (C54_refuted). C54_exact says which coordinates are reported for every journey; C54_right_iff: they are the true ones exactly when no coordinate becomes positive after it was negative."
  },
  {
   "property": "C61",
   "status": "proved",
   "theorems": [
    "Verif.C61_bodies_never_panic",
    "Verif.C61_bodies_encode",
    "Verif.C61_message_panics_iff",
    "Verif.C61_sent_messages_never_panic",
    "Verif.C61_encrypted"
   ],
   "note": "Exact for messages without encryption (panics iff ...). Lists of pointers are modelled without nil entries."
  },
  {
   "property": "C62",
   "status": "proved",
   "theorems": [
    "Verif.C62_frames_distinct",
    "Verif.C62_streams_distinct"
   ],
   "note": "From the round trip (C01, C16) and reassembly (C12); bodies are compared without the cached encoding of decoded location items."
  },
  {
   "property": "C55",
   "status": "proved",
   "theorems": [
    "Verif.C55_order",
    "Verif.C55_stream",
    "Verif.C55_delivered",
    "Verif.C55_progress",
    "Verif.C55_fair",
    "Verif.C55_fair_example"
   ],
   "note": "C55_order and C55_stream for every schedule, C55_delivered composed with the receiving codec (any pieces, cut anywhere), C55_progress. C55_fair: in every run without end in which the send loop is given turns again and again, the session stays open and nothing fails, every accepted message is on the wire at some time (C55_fair_example: a concrete run). The queue and send loop of github.com/funny/link are modelled from knowledge of the library (trusted base)."
  },
  {
   "property": "C56",
   "status": "partial",
   "theorems": [
    "Verif.C56_refuted",
    "Verif.C56_failure_ends_connection_partial",
    "Verif.C56_exact_partial"
   ],
   "note": "False: encoding happens in the send loop, Send has long returned nil (C56_refuted: a text that GB18030 cannot represent). Exactly: Send returns nil iff the session is open and has room, whatever the message (C56_exact_partial). Proved instead: the failure ends the connection, nothing is written afterwards, later calls fail."
  },
  {
   "property": "C57",
   "status": "partial",
   "theorems": [
    "Verif.C57_refuted",
    "Verif.C57_one_at_a_time_partial",
    "Verif.C57_number_within_call_partial",
    "Verif.C57_calls_in_turn_partial"
   ],
   "note": "False for overlapping calls: number and place in the queue are taken in two steps (C57_refuted). Proved for calls that do not overlap, and for any two calls of which one ended before the other began, whatever else overlaps (C57_calls_in_turn_partial)."
  },
  {
   "property": "C65",
   "status": "partial",
   "theorems": [
    "Verif.C65_refuted",
    "Verif.C65_snapshot_partial",
    "Verif.C65_exact"
   ],
   "note": "False: the queue holds the pointer (C65_refuted: the changed text is sent). Proved if the program does not change a body that waits; other sessions may send the same object meanwhile. Exactly: what is written is the value assigned last before the send loop takes the message (C65_exact)."
  },
  {
   "property": "C66",
   "status": "proved",
   "theorems": [
    "Verif.C66_bounded",
    "Verif.C66_send_returns"
   ],
   "note": "Bound by an invariant over all schedules; every call of Send ends after at most three steps of its own, whatever others do in between."
  },
  {
   "property": "C58",
   "status": "proved",
   "theorems": [
    "Verif.C58_callbacks_match",
    "Verif.C58_answer_runs_callback",
    "Verif.C58_end_to_end"
   ],
   "note": "For every history: callbacks are called only with answers to their pending request; a waiting request's callback is called first of all when its answer arrives; end to end from the bytes written by the terminal. Waiting means: made, not replaced by a later request with the same message id, not yet answered, and no other request with the same serial number."
  },
  {
   "property": "C63",
   "status": "proved",
   "theorems": [
    "Verif.C63_pending_bounded",
    "Verif.C63_callbacks_bounded"
   ],
   "note": "Bound on the pending requests and, as seen from outside, on the callbacks that can still run."
  },
  {
   "property": "C67",
   "status": "partial",
   "theorems": [
    "Verif.C67_refuted",
    "Verif.C67_first_255_partial",
    "Verif.C67_since_rest_partial",
    "Verif.C67_free_partial",
    "Verif.C67_first_255_free"
   ],
   "note": "False of the code (C67_refuted: a request is never answered, 254 messages later its serial number is used again, and the answer to the new message runs the stale callback). Proved for the first 255 messages of a session, and for 255 messages from any point at which no call is under way and no request is pending. C67_free_partial: for sessions of any length in which every number is handed out only while it is not in use; the first 255 messages are a special case (C67_first_255_free)."
  },
  {
   "property": "C59",
   "status": "proved",
   "theorems": [
    "Verif.C59_part_confined",
    "Verif.C59_full_confined",
    "Verif.C59_no_dots",
    "Verif.C59_parts_distinct",
    "Verif.C59_fulls_distinct",
    "Verif.C59_part_not_full",
    "Verif.C59_only_own_files",
    "Verif.C59_other_terminals_untouched"
   ],
   "note": "Paths as byte strings: components, no '.', '..' or empty components, injectivity, and for every history of the receive loop: every file belongs to an upload of which a part was received, and directories of other terminals do not change. Permissions and symbolic links are not modelled."
  },
  {
   "property": "C60",
   "status": "partial",
   "theorems": [
    "Verif.C60_new_server",
    "Verif.C60_calls_in_turn_partial",
    "Verif.C60_stop_closes_partial",
    "Verif.C60_refused_iff",
    "Verif.C60_no_crash_partial",
    "Verif.C60_overlapping_partial",
    "Verif.C60_refuted_two_runs",
    "Verif.C60_refuted_two_stops",
    "Verif.C60_refuted_after_failure",
    "Verif.C60_crash_exact_partial",
    "Verif.C60_left_open",
    "Verif.C60_left_open_exact_partial",
    "Verif.C60_all_closed_partial",
    "Verif.C60_server_made"
   ],
   "note": "NewServer fully. Run is refused exactly while a started server was not stopped, in every schedule (C60_refused_iff). Run and Stop proved for calls of which no two Runs and no two Stops overlap (C60_overlapping_partial); no crash if no two Stops overlap. False for overlapping calls (C60_refuted_two_runs: two servers run and Stop closes one; C60_refuted_two_stops: crash) and after Serve ended on its own (C60_refuted_after_failure: Run is refused although nothing serves). C60_crash_exact_partial: overlapping calls crash exactly if a call of Stop that has passed its check goes on after another one has stopped the server. C60_left_open_exact_partial: exactly when a listener is left that no later call closes (C60_left_open); C60_all_closed_partial: otherwise nothing listens after Stop."
  },
  {
   "property": "C64",
   "status": "partial",
   "theorems": [
    "Verif.C64_refuted",
    "Verif.C64_nothing_removed"
   ],
   "note": "False of the code (C64_refuted); C64_nothing_removed: no file is ever removed in any history."
  },
  {
   "property": "C68",
   "status": "partial",
   "theorems": [
    "Verif.C68_exact",
    "Verif.C68_body_relay_partial",
    "Verif.C68_message_relay_partial",
    "Verif.C68_refuted",
    "Verif.C68_refuted_text",
    "Verif.C68_refuted_encrypted"
   ],
   "note": "C68_exact: whatever bytes a body was decoded from, it can be passed on unchanged if and only if it meets Spec.Survives (texts representable in GB18030, non-empty lists and keys, no extras in location reports, CAN time within the day, 1024-bit RSA key, lossless gzip); the necessary direction under Spec.Codecs. Everything else a round trip needs (coordinates and hemispheres, dates, widths, counts) is shown to hold of whatever was decoded. Also for whole messages received in clear (sufficient conditions). False without them: C68_refuted lists nine accepted bodies that are refused when passed on, C68_refuted_text one that is silently changed, C68_refuted_encrypted a decrypted message that is sent on in clear but marked as encrypted."
  },
  {
   "property": "C69",
   "status": "proved",
   "theorems": [
    "Verif.C69_isolation",
    "Verif.C69_connection",
    "Verif.C69_same_upload_matters"
   ],
   "note": "Non-interference between any two courses of events that differ only in other uploads, for the loop and for a whole connection from its bytes. C69_same_upload_matters shows the limit: nothing ties a terminal number to a connection, so another client that uses the same terminal number, message id and media id does interfere. Other shared state: handlers (C32), the registry and the timer (C34, C36), which treat sessions separately."
  },
  {
   "property": "C70",
   "status": "proved",
   "theorems": [
    "Verif.C70_accepts_iff",
    "Verif.C70_rejects_iff"
   ],
   "note": "Accepts (Spec/Accepts.lean) is a grammar written as relations between bytes and rests, without the model's readers. Both directions for all types; with C15 the refused bytes give an error, never a panic."
  },
  {
   "property": "C71",
   "status": "proved",
   "theorems": [
    "Verif.C71_received_iff",
    "Verif.C71_one_reading",
    "Verif.C71_refused_iff",
    "Verif.C71_body_iff"
   ],
   "note": "Arrives and Decrypted (Spec/Receive.lean) describe frames in terms of delimiters, escape sequences, check byte and header layout. C71_body_iff combines this with C70 for the registered types. Delimiters inside the frame and an unescaped check byte are accepted, as the code does."
  },
  {
   "property": "C72",
   "status": "proved",
   "theorems": [
    "Verif.C72_upload_arrives",
    "Verif.C72_file_arrives"
   ],
   "note": "End to end: terminal's messages, codec of both sides, receive loop, storage and handler. Assumes that storing and merging succeeds and that no other session touches the same upload meanwhile (Smooth); the failing cases are C41-C44. The condition that the last part comes last is necessary (C41_refuted)."
  },
  {
   "property": "C73",
   "status": "partial",
   "theorems": [
    "Verif.C73_client_upload_partial",
    "Verif.C73_client_upload_iff",
    "Verif.C73_refuted_panics",
    "Verif.C73_refuted_numbers"
   ],
   "note": "Proved for files whose length is a multiple of 512 (the only size in the source); refuted for 700 bytes (panic) and 768 bytes (wrong part numbers). C73_client_upload_iff: exactly the lengths up to 65535 for which the client sends a correct upload."
  },
  {
   "property": "C74",
   "status": "proved",
   "theorems": [
    "Verif.C74_each_as_if_alone",
    "Verif.C74_own_uploads",
    "Verif.C74_whole_server",
    "Verif.C74_received_in_order",
    "Verif.C74_called_in_order",
    "Verif.C74_one_at_a_time"
   ],
   "note": "Small-step model of all loops; each step is one look at or change of shared data. At every point where the goroutine of a connection is between two messages or has ended, its view and its acts are those of a run of the single loop. The steps of others in that run are exactly what others did (their acts appear in the same log in the same order). C74_whole_server, C74_received_in_order, C74_called_in_order and C74_one_at_a_time: the same in the whole server, where sessions are also accepted, kept alive and closed."
  },
  {
   "property": "C75",
   "status": "proved",
   "theorems": [
    "Verif.C75_upload_arrives",
    "Verif.C75_files_arrive"
   ],
   "note": "C75_upload_arrives: arbitrary messages and orders as in C72; C75_files_arrive: files cut into parts, any number of terminals, including that no schedule crashes the server if the key has a modulus and no frame has fewer than two bytes between its delimiters. Uploads are different when terminal number or media id differ; for equal ones see C69_same_upload_matters."
  },
  {
   "property": "C76",
   "status": "proved",
   "theorems": [
    "Verif.C76_conversation",
    "Verif.C76_numbers",
    "Verif.C76_end_to_end",
    "Verif.C76_terminal_reads"
   ],
   "note": "C76_conversation: refinement of the specification Talk for arbitrary handlers and callbacks; C76_numbers: consecutive numbers; C76_end_to_end: from the bytes, the same for all splits; C76_terminal_reads: what the terminal reads; C31_in_handlers_partial: requests of handlers. User code that never returns is not modelled; calls from other goroutines are in C29-C31, C57 and C74."
  },
  {
   "property": "C77",
   "status": "proved",
   "theorems": [
    "Verif.C77_at_every_moment",
    "Verif.C77_can_complete",
    "Verif.C77_in_the_end",
    "Verif.C77_fair"
   ],
   "note": "For every schedule of arrivals on the two streams: safety at every moment, completion from every moment, and the exact result. C77_fair: in every course of events without end in which everything sent arrives at some time, this result is reached and stays. Assumptions: file operations and writes succeed, the clock of the client shows a time from 2010 to 2099, the keys have 1024 bits, GB18030 can write the client's ASCII authentication key."
  },
  {
   "property": "C78",
   "status": "partial",
   "theorems": [
    "Verif.C78_handled_message_restarts",
    "Verif.C78_period_counts_from_message",
    "Verif.C78_only_handled_messages_restart",
    "Verif.C78_kept_open_partial",
    "Verif.C78_closed_after_period_partial",
    "Verif.C78_silent_closed",
    "Verif.C78_refuted"
   ],
   "note": "Model of the whole server (lifecycle, timer and receive loops in one state machine). Refuted in full: messages without handler and parts of uploads do not restart the period. Proved: every handled message restarts the period before its handler is called, nothing else does after the first restart, a session never expires less than a period after its last restart (for clocks and periods whose sums fit 64 bits), and a session silent for a period is closed."
  },
  {
   "property": "C79",
   "status": "partial",
   "theorems": [
    "Verif.C79_after_loop_partial",
    "Verif.C79_own_close_partial",
    "Verif.C79_only_buffered_partial",
    "Verif.C79_refuted",
    "Verif.C79_exact_partial",
    "Verif.C79_fair_partial"
   ],
   "note": "Refuted: messages that are in the buffer when another goroutine closes the session are still handled after the close handler. Proved: it holds once the loop has ended, in particular if the loop closes the session itself; after a close by another goroutine exactly the messages completely in the buffer are still received (C79_exact_partial), and in every run in which the goroutine of the session is given turns they are (C79_fair_partial)."
  },
  {
   "property": "C80",
   "status": "partial",
   "theorems": [
    "Verif.C80_check_partial",
    "Verif.C80_delivery_partial",
    "Verif.C80_reading_partial",
    "Verif.C80_complete_partial",
    "Verif.C80_atomic_partial",
    "Verif.C80_one_connection",
    "Verif.C80_no_panic_partial",
    "Verif.C80_refuted",
    "Verif.C80_refuted_delivery",
    "Verif.C80_refuted_unreadable"
   ],
   "note": "Model of every system call of multipart.go, for any number of goroutines. Refuted in full: two connections of one terminal can deliver an upload without a part that is being written, and an unreadable directory counts as an empty one. Proved for every interleaving and every failure: if the calls for the upload that conflict (the same part twice, or a part and a question or a merge) do not overlap and the directory can be read, check and delivery are exact and equal to the one-step model; one goroutine per upload suffices; panics only in IsFull and Merge, for a missing directory or an error of Lstat."
  },
  {
   "property": "C81",
   "status": "proved",
   "theorems": [
    "Verif.C81_no_leak",
    "Verif.C81_all_parts_open"
   ],
   "note": "Counting of opened and closed files over the model of every system call; also that the files of all parts are open at once during a merge."
  },
  {
   "property": "C82",
   "status": "proved",
   "theorems": [
    "Verif.C82_status",
    "Verif.C82_area",
    "Verif.C82_section",
    "Verif.C82_received",
    "Verif.C82_limits"
   ],
   "note": "All accessors modelled; the last call for a flag decides; every decoded place of every registered body agrees with its accessors."
  },
  {
   "property": "C83",
   "status": "partial",
   "theorems": [
    "Verif.C83_body_table",
    "Verif.C83_builtin_elsewhere",
    "Verif.C83_body_round_trip_partial",
    "Verif.C83_refuted_body",
    "Verif.C83_received_exact",
    "Verif.C83_received_partial",
    "Verif.C83_extra_table",
    "Verif.C83_extras_exact",
    "Verif.C83_extras_round_trip_partial",
    "Verif.C83_builtin_extras_arrive",
    "Verif.C83_nothing_registered",
    "Verif.C83_refuted"
   ],
   "note": "False of the code for own types that are not pointer types (C83_refuted: extras; C83_refuted_body: bodies) and for own types registered for the id of an answer (C83_received_exact: exactly the messages for which the receive loop panics). Proved: which type decodes an id after any registrations, round trip of own bodies and of reports with own and built-in extras, exactly which bytes behind a report decode to which extras, and that no bytes received end the receive loop otherwise."
  },
  {
   "property": "C84",
   "status": "partial",
   "theorems": [
    "Verif.C84_partial",
    "Verif.C84_run_stop_partial",
    "Verif.C84_register_partial",
    "Verif.C84_key_partial",
    "Verif.C84_body_partial",
    "Verif.C84_careful_partial",
    "Verif.C84_refuted"
   ],
   "note": "Refuted in full (C84_refuted): Stop against Run, SetPublicKey against the send loop, Register against decoding, and two send loops that encode one broadcast body whose Encode sets bits in it. Proved for every program and schedule: the sessions of the server, the queue and period of the timer, serial numbers, terminal number, table of requests and receive buffer of every session (C84_partial); for the rest under conditions on the program that Spec/Sync.lean states (one goroutine runs and stops; types are registered before the first go statement; the key is set before the first message is sent, by the goroutine that sends; bodies are not changed after sending), and C84_careful_partial puts all together: no data race at all. Happens-before has the rules for program order, locks, channels and go statements; leaving out the others only makes the claim stronger."
  },
  {
   "property": "C85",
   "status": "partial",
   "theorems": [
    "Verif.C85_no_lock_held",
    "Verif.C85_released",
    "Verif.C85_partial",
    "Verif.C85_sender",
    "Verif.C85_no_deadlock_partial",
    "Verif.C85_fair_partial",
    "Verif.C85_fair_locks",
    "Verif.C85_refuted",
    "Verif.C85_exact_partial",
    "Verif.C85_close_exact_partial",
    "Verif.C85_stop_in_close_handler",
    "Verif.C85_fair_exact_partial",
    "Verif.C85_without_stop"
   ],
   "note": "Refuted in full (C85_refuted): a close handler that calls Stop waits for its own end (link's Stop waits for the close callbacks). Proved: application code is called without any lock, no goroutine waits while it holds a lock (C85_no_lock_held), the holder of a lock can always go on and release it (C85_released), and if no close handler calls Stop every goroutine other than a send loop can come to its end from every reachable state (C85_partial); send loops wait only for messages (C85_sender); if nobody can make a step, everyone has ended (C85_no_deadlock_partial); in every run without end in which scheduler and locks are fair, every goroutine does come to its end (C85_fair_partial) and no lock is held for ever (C85_fair_locks). Without the condition: a goroutine can come to its end from a reachable state (C85_exact_partial), and does in every fair run (C85_fair_exact_partial), if and only if none of the close handlers it waits for is part of a circle of close handlers that call Stop and wait for each other; for close handlers themselves C85_close_exact_partial; one that calls Stop while link has its own session never ends, nor does anyone who waits for it (C85_stop_in_close_handler). Waiting of the program's own (its locks and channels) and for the network is not part of the model."
  },
  {
   "property": "C86",
   "status": "partial",
   "theorems": [
    "Verif.C86_connections_partial",
    "Verif.C86_same_partial",
    "Verif.C86_delivered_partial",
    "Verif.C86_others",
    "Verif.C86_progress_partial",
    "Verif.C86_refuted",
    "Verif.C86_fair_partial",
    "Verif.C86_fair_example",
    "Verif.C86_media_exact_partial"
   ],
   "note": "Model of all connections with the objects they share. False for media messages (C86_refuted): the first send loop consumes the content. Proved for all other bodies that the program does not change while they wait: every connection behaves like one of C55 (refinement), all frames of the body are those of its value, terminals receive what was accepted (C86_delivered_partial), connections do not touch each other (C86_others) and one alone can write all that waits for it (C86_progress_partial). C86_media_exact_partial: of a media message that several send loops work on, the first one writes the content and all others write the message without content. C86_fair_partial: if the send loop of an open connection keeps getting turns and its encodings and writes succeed, every message accepted for it is written at some time, whatever the other connections do."
  },
  {
   "property": "C87",
   "status": "partial",
   "theorems": [
    "Verif.C87_readme_first",
    "Verif.C87_readme_second",
    "Verif.C87_readme_third",
    "Verif.C87_example",
    "Verif.C87_upload",
    "Verif.C87_whole_partial",
    "Verif.C87_refuted",
    "Verif.C87_prints",
    "Verif.C87_query_partial",
    "Verif.C87_query_refuted"
   ],
   "note": "The servers of README.md and example/server as programs on the session model, on the bytes that arrive. Proved: exactly which messages each one hands to the connection (C87_readme_first, _second, _third, C87_example), what the upload of a file leads to (C87_upload) and what the second one prints (C87_prints, C87_query_partial). False: the third one reads at most 1 MiB of an upload that it acknowledges (C87_refuted; C87_whole_partial below that), and the second one never prints the parameters if the terminal acknowledges the query first (C87_query_refuted)."
  },
  {
   "property": "C88",
   "status": "partial",
   "theorems": [
    "Verif.C88_exact",
    "Verif.C88_partial",
    "Verif.C88_refuted",
    "Verif.C88_refuted_undecodable"
   ],
   "note": "False for the replies of the session itself before a message was served: they are addressed to terminal 0 (C88_refuted), which cannot be decoded (C88_refuted_undecodable). C88_exact: the number is that of the terminal if and only if a message was served before, for all programs; C88_partial: all messages of handlers and callbacks and all later ones carry it."
  },
  {
   "property": "C89",
   "status": "partial",
   "theorems": [
    "Verif.C89_refines",
    "Verif.C89_exact",
    "Verif.C89_again",
    "Verif.C89_refuted",
    "Verif.C89_refuted_directories",
    "Verif.C89_privileged_partial",
    "Verif.C89_refuted_session"
   ],
   "note": "Model of the permissions that decide whether os.MkdirAll and ioutil.WriteFile succeed, linked to the storage model (C89_refines). False: the directories are made with mode 0644, which their owner may not search, so for an ordinary user no write ever succeeds (C89_refuted), not even the directory of a terminal is made (C89_refuted_directories), and every part is answered with failure (C89_refuted_session). C89_exact says exactly when a write succeeds; C89_again: when a part that is sent again can be stored again; C89_privileged_partial: always for root."
  },
  {
   "property": "C90",
   "status": "partial",
   "theorems": [
    "Verif.C90_fixed",
    "Verif.C90_accepts_iff",
    "Verif.C90_same_reading",
    "Verif.C90_partial",
    "Verif.C90_exact",
    "Verif.C90_refuted",
    "Verif.C90_refuted_gap",
    "Verif.C90_date_partial",
    "Verif.C90_date_read_back",
    "Verif.C90_refuted_date",
    "Verif.C90_refuted_date_location"
   ],
   "note": "Zones with any list of changes, time.Date of older and newer Go. False where clocks are set back (C90_refuted: two instants are written alike), where they are set forward (C90_refuted_gap: bytes are accepted and written differently), for dates that begin at one o'clock (C90_refuted_date) and for dates of values in another location (C90_refuted_date_location). Proved: an instant whose reading occurs once is read back (C90_partial); of two instants with the same reading exactly one is (C90_exact); what is read always shows what was written (C90_same_reading); which bytes are accepted does not depend on the zone (C90_accepts_iff); a date remains the date where its day has a midnight (C90_date_partial). Without changes the conversions are those of the rest of the model (C90_fixed)."
  },
  {
   "property": "C91",
   "status": "partial",
   "theorems": [
    "Verif.C91_key_pair",
    "Verif.C91_message",
    "Verif.C91_only_encryptions",
    "Verif.C91_modulus_block",
    "Verif.C91_uploaded_key",
    "Verif.C91_any_key",
    "Verif.C91_refuted"
   ],
   "note": "RSA-OAEP with SHA-1 is modelled down to the bytes, and the assumption under which C27 and C28 are stated is proved of all RSA keys of more than 42 bytes. Proved: messages round trip, uploaded keys are usable, and a block decrypts if and only if it is an encryption. Refuted: an accepted key upload with a short modulus makes every encryption with it panic; C91_any_key says exactly what happens with every key."
  },
  {
   "property": "C92",
   "status": "proved",
   "theorems": [
    "Verif.C92_end_to_end",
    "Verif.C92_same_as_plain",
    "Verif.C92_unreadable",
    "Verif.C92_rsa",
    "Verif.C92_example_server"
   ],
   "note": "End to end from the bytes of a terminal that encrypts some of its messages to the calls of handlers and callbacks; equal course to the plain conversation for programs that do not look at the encryption (shown for the example server); closing at the first message that cannot be decrypted; instance for real RSA-OAEP keys of 1024 bits."
  },
  {
   "property": "C93",
   "status": "proved",
   "theorems": [
    "Verif.C93_as_if_at_once",
    "Verif.C93_files_arrive",
    "Verif.C93_no_crash",
    "Verif.C93_same_upload_matters",
    "Verif.C93_failing_check_matters",
    "Verif.C93_fair_ends",
    "Verif.C93_fair_files_arrive",
    "Verif.C93_fair_example"
   ],
   "note": "C93_as_if_at_once: every run at system-call granularity has a counterpart in the model of C74 and C75 with the same acts in the same order; what handlers read of merged files is related to the content there. C93_files_arrive: from the bytes of terminals that upload files to what the handlers read. C93_no_crash: no schedule crashes the server unless a system call of IsFull or Merge fails. C93_same_upload_matters and C93_failing_check_matters: the conditions are needed (witnesses: two connections with the same upload give a handler a mixed file; a failing Lstat in IsFull is a nil dereference). C93_fair_ends: in every run without end in which a connection is given turns again and again and its system calls come back, its loop ends, whatever happens on the other connections. C93_fair_files_arrive: if moreover no system call fails, its upload is stored, answered, merged and passed on at some time. C93_fair_example: a concrete run of this kind."
  },
  {
   "property": "C94",
   "status": "proved",
   "theorems": [
    "Verif.C94_same_deliveries",
    "Verif.C94_same_from_bytes",
    "Verif.C94_handlers_matter",
    "Verif.C94_code_is_outside",
    "Verif.C94_each_once_in_order"
   ],
   "note": "C94_same_deliveries: two programs with handlers for the same message ids, on the same messages. C94_same_from_bytes: on the same bytes, all of them, including those that crash the server. C94_handlers_matter: the condition is needed. C94_code_is_outside: every session with code is a course of the receive loop of C32, with the requests of the code coming from outside; C94_each_once_in_order is an application. The code of handlers and callbacks consists of calls of Send, Reply and Request on its own session; handlers that close the session are the subject of C95."
  },
  {
   "property": "C95",
   "status": "partial",
   "theorems": [
    "Verif.C95_nothing_sent",
    "Verif.C95_refused_after",
    "Verif.C95_refuted",
    "Verif.C95_left_over_partial",
    "Verif.C95_at_most_eight_partial",
    "Verif.C95_eight_reached",
    "Verif.C95_loop_ends",
    "Verif.C95_separate_partial",
    "Verif.C95_same_message",
    "Verif.C95_as_if_ended"
   ],
   "note": "C95_nothing_sent: the first half, after any closing of the session. C95_refused_after: conversely, on a connection that accepts everything, a message is refused only if the session was closed. C95_refuted: the second half is false; a heartbeat that was read together with a refused authentication is still given to its handler. C95_left_over_partial says which messages are still received: those of the frames at the start of what is left of the piece that had been read. C95_at_most_eight_partial: at most eight, with one handler call each, and one for the message that was being worked on; C95_eight_reached and C95_same_message: both happen. C95_separate_partial: the second half holds if no piece has a whole frame behind other bytes. C95_loop_ends: the receive loop ends. C95_as_if_ended: otherwise the session does what a session of C76 does whose connection ends earlier. Assumptions about the library github.com/funny/link are in the header of Model/HangUp.lean."
  },
  {
   "property": "C96",
   "status": "proved",
   "theorems": [
    "Verif.C96_sha1",
    "Verif.C96_block",
    "Verif.C96_written",
    "Verif.C96_read",
    "Verif.C96_message_written",
    "Verif.C96_message_read"
   ],
   "note": "C96_sha1: the hash of the model is that of FIPS 180-4. C96_block: a block is encrypted exactly as RFC 8017 says. C96_written: EncryptOAEP. C96_read: DecryptOAEP, for valid RSA keys. C96_message_written and C96_message_read: whole frames, with the header and the tables of the bodies (C52). The standards are written down in Spec/Standards.lean, apart from the model, which follows the standard library of Go (Model/Oaep.lean, Model/Sha1.lean); that the library of Go does what the model says is an assumption."
  },
  {
   "property": "C97",
   "status": "partial",
   "theorems": [
    "Verif.C97_exact_partial",
    "Verif.C97_refuses",
    "Verif.C97_all_closed",
    "Verif.C97_waits",
    "Verif.C97_close_handlers_partial",
    "Verif.C97_only_buffered_partial",
    "Verif.C97_late_sessions",
    "Verif.C97_after_loop",
    "Verif.C97_quiet_partial",
    "Verif.C97_can_return",
    "Verif.C97_refuted",
    "Verif.C97_refuted_registered",
    "Verif.C97_no_crash",
    "Verif.C97_fair_returns",
    "Verif.C97_fair_closes",
    "Verif.C97_fair_closed",
    "Verif.C97_fair_loops_end",
    "Verif.C97_fair_quiet",
    "Verif.C97_fair_example"
   ],
   "note": "C97_refuses: no connection is accepted once Stop is called, and at most as many sessions are made as connections were accepted before. C97_all_closed: when Stop has returned every session is closed, and one that is made later is closed at once. C97_waits: the goroutines that close the sessions made before the call have ended. C97_fair_returns: Stop returns in every run without end in which the goroutines that close sessions are given turns again and again; C97_can_return: from every reachable state it can return; C97_fair_closes, C97_fair_closed: every closing comes to its end. C97_no_crash: no schedule crashes the server if the key has a modulus and no frame has fewer than two bytes between its delimiters. C97_refuted: a handler is called after Stop has returned. C97_refuted_registered: a session made before the call stays registered for ever and its close handler never runs. C97_fair_loops_end, C97_fair_quiet: in every fair run the receive loops end, so there is a time from which on no message is received and no handler is called. C97_close_handlers_partial: for sessions whose close callback was in place in time the close handler has run exactly once and GetSession does not find them. C97_only_buffered_partial: afterwards only messages completely in a buffer are received. C97_late_sessions, C97_after_loop, C97_quiet_partial: nothing is received or called afterwards for sessions made later or whose loops have ended. C97_fair_example: a fair run. Assumptions about the library github.com/funny/link are in the header of Model/Shutdown.lean. C97_exact_partial: of the sessions made before and entered in the registry, exactly those are forgotten, with their close handler run once, whose close callback was in place when their closing goroutine ended; the others stay for ever."
  },
  {
   "property": "C98",
   "status": "proved",
   "theorems": [
    "Verif.C98_as_if_alone",
    "Verif.C98_conversations",
    "Verif.C98_uploads_arrived",
    "Verif.C98_apart",
    "Verif.C98_upload_arrives",
    "Verif.C98_file_arrives",
    "Verif.C98_files_arrive",
    "Verif.C98_no_crash",
    "Verif.C98_three_bytes",
    "Verif.C98_gets_done",
    "Verif.C98_example_at_every_moment",
    "Verif.C98_example_in_the_end",
    "Verif.C98_example_can_complete",
    "Verif.C98_numbers",
    "Verif.C98_send_from_elsewhere",
    "Verif.C98_request_from_elsewhere",
    "Verif.C98_answers",
    "Verif.C98_fair_gets_done",
    "Verif.C98_fair_files_arrive",
    "Verif.C98_fair_example_completes",
    "Verif.C98_fair_runs"
   ],
   "note": "C98_as_if_alone: leaving out everything that concerns other connections changes nothing on this one, if the uploads on it are not those on others. C98_conversations: what is done on a connection is, at every moment, a beginning of a conversation as specified in Spec/Converse.lean on the messages that arrive on it, all of it when the loop waits, all of it and the closing when the loop is over; it is over only because of the bytes it sent, or when the terminal has hung up and all that arrived before is done (for sessions used by their own handlers only). C98_numbers, C98_send_from_elsewhere, C98_request_from_elsewhere, C98_answers: for sessions that any goroutine uses at any time, the numbers of all messages together, what a call from elsewhere does, and that the answer to such a request runs its callback (with at most 255 messages, as in C31). C98_uploads_arrived, C98_apart: which uploads there are depends on what arrives only. C98_upload_arrives, C98_file_arrives, C98_files_arrive: C72 and C75 for handlers with code and interleaved handlers: files uploaded at the same time reach the handler complete, once, and every part is answered. C98_no_crash; C98_three_bytes: the exception, one such frame ends the server for all (C51). C98_gets_done: after some turns of its loop nothing is left to do. C98_fair_gets_done, C98_fair_files_arrive: in every run without end in which the loop of the connection is given turns again and again, it gets done with what has arrived and stays so, and files that have arrived are given to the handler; C98_fair_example_completes: in every fair run the conversation of the example client comes to its end, and C98_fair_runs: every beginning goes on as such a run. C98_example_*: the example client of C77 among other connections, at every moment, in the end, and that it can always get there. Assumptions: reading the directory of the parts does not fail (C93 is about that, with every system call a step of its own); handlers of different sessions share no data but the sessions; for the example client also those of C77."
  },
  {
   "property": "C99",
   "status": "proved",
   "theorems": [
    "Verif.C99_kept",
    "Verif.C99_only_what_arrived",
    "Verif.C99_as_if_at_once",
    "Verif.C99_upload_completes",
    "Verif.C99_parts_fit",
    "Verif.C99_no_crash",
    "Verif.C99_torn_part_matters",
    "Verif.C99_success_means_stored",
    "Verif.C99_success_is_kept",
    "Verif.C99_send_what_was_not_answered",
    "Verif.C99_fair_send_what_was_not_answered",
    "Verif.C99_serials",
    "Verif.C99_fair_ends",
    "Verif.C99_fair_completes",
    "Verif.C99_fair_example"
   ],
   "note": "C99_kept: a part that was stored without error and that no process tried to store again is there, whatever else was interrupted. C99_only_what_arrived: what is left of a part is a beginning of a part that arrived. C99_as_if_at_once: C93 also on files that were left. C99_upload_completes: from the bytes the terminal sends again to what the handler reads. C99_parts_fit: its condition on what arrived is met by a terminal that sends nothing but parts of its file. C99_no_crash: leftovers do not crash the server. C99_success_means_stored: the answer \"success\" comes directly after the call that stored the part. C99_success_is_kept and C99_send_what_was_not_answered: the same in terms of the answers the terminal got; C99_serials: their condition on serial numbers is met by a terminal that uses no serial number for two parts. C99_torn_part_matters: parts that were not answered have to be sent again (witness: a handler is given a file that nobody sent). C99_fair_ends and C99_fair_completes: in every run without end of the restarted server in which the connection is given turns again and again and its system calls come back without failing, the upload is stored, answered, merged and passed on at some time. C99_fair_send_what_was_not_answered: the same in terms of the answers. C99_fair_example: a concrete run of this kind. Assumption: what was written before the process ended stays in the files."
  },
  {
   "property": "C100",
   "status": "partial",
   "theorems": [
    "Verif.C100_exact_partial",
    "Verif.C100_closed",
    "Verif.C100_over",
    "Verif.C100_released",
    "Verif.C100_gone_partial",
    "Verif.C100_refuted",
    "Verif.C100_example"
   ],
   "note": "C100_closed: every session is closed at some time in every run in which the clock goes on, the goroutine of the timer is given turns and the goroutine of the session is given turns while it starts and while it restarts the period; receiving and handlers may wait for ever. C100_over: with every goroutine given turns, its closing and its loop come to their ends. C100_released: link keeps no entry of it in its maps. C100_gone_partial: a session whose close callback was put in place while it was open has its close handler called exactly once and is not found by GetSession from some time on. Missing, because the code is otherwise: sessions that the timer closes before (C100_refuted: such a session stays registered for ever). C100_example: runs that meet the hypotheses, with a terminal that closes its connection and one that does not. C100_exact_partial: in every such run a registered session is, from some time on, either forgotten with its close handler run once, or there for ever without it, and the first exactly if its close callback was in place when its closing goroutine ended."
  },
  {
   "property": "C101",
   "status": "proved",
   "theorems": [
    "Verif.C101_all_received",
    "Verif.C101_passed_in_order",
    "Verif.C101_all_handled",
    "Verif.C101_right_handler",
    "Verif.C101_in_time",
    "Verif.C101_fair_all",
    "Verif.C101_fair_terminal",
    "Verif.C101_fair_example"
   ],
   "note": "C101_fair_terminal: from end to end, with the bytes that Send writes. C101_fair_all: the same for any bytes, with whatever can be decoded of them. C101_all_received: a loop that closes the session itself has received everything that arrived. C101_passed_in_order: what is received is passed on in order, at most one message being on its way. C101_all_handled: when the loop has ended nothing is left to be passed on, called or returned. C101_right_handler: the handler found is the one registered last, and none is found only if none is registered. C101_in_time: the keepalive leaves the session alone as long as handled messages come in time. C101_fair_example: a run that meets the hypotheses. The model is that of C97; a handler that blocks for ever is a goroutine that is given no turns."
  }
 ]
}