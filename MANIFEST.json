{
 "claims": [
  {
   "property": "C01",
   "status": "proved",
   "theorems": [
    "Verif.Props.C01_print_form",
    "Verif.Props.C01_roundtrip",
    "Verif.Props.C01_accepts_exactly",
    "Verif.Props.C01_rejects_exactly",
    "Verif.Props.C01_constructor_partial",
    "Verif.Props.C01_constructor_accepts_empty",
    "Verif.Props.C01_literal",
    "Verif.Props.C01_fields"
   ],
   "note": "Print/parse round trip and exact acceptance for parse(). The throwing constructor additionally accepts the empty text: C01_constructor_partial excludes it, C01_constructor_accepts_empty is the witness."
  },
  {
   "property": "C02",
   "status": "proved",
   "theorems": [
    "Verif.Props.C02_compare_lexicographic",
    "Verif.Props.C02_total_order",
    "Verif.Props.C02_equals",
    "Verif.Props.C02_operators",
    "Verif.Props.C02_bounds",
    "Verif.Props.C02_hash"
   ],
   "note": "compare, equals and is_nil modelled lane by lane (SSE2)."
  },
  {
   "property": "C03",
   "status": "proved",
   "theorems": [
    "Verif.Props.C03_v4_bits",
    "Verif.Props.C03_v7_bits"
   ],
   "note": "All draws, clocks, process ids and generator states."
  },
  {
   "property": "C04",
   "status": "partial",
   "theorems": [
    "Verif.Props.C04_v7_increasing_partial",
    "Verif.Props.C04_v7_wraps",
    "Verif.Props.C04_v7_clock_back"
   ],
   "note": "Strictly increasing under exactly the stated conditions; the documentation's unconditional ordering is false, with witnesses for serial wrap and clock step back."
  },
  {
   "property": "C05",
   "status": "proved",
   "theorems": [
    "Verif.Props.C05_timespec_exact",
    "Verif.Props.C05_timespec_unique",
    "Verif.Props.C05_low_window_wrong"
   ],
   "note": "Exact on the stated range; C05_low_window_wrong shows every time of the excluded 854.8 ms window converts wrongly."
  },
  {
   "property": "C06",
   "status": "partial",
   "theorems": [
    "Verif.Props.C06_rfc1123",
    "Verif.Props.C06_cookie",
    "Verif.Props.C06_asctime",
    "Verif.Props.C06_rfc850_partial",
    "Verif.Props.C06_git_partial",
    "Verif.Props.C06_parse",
    "Verif.Props.C06_clamped",
    "Verif.Props.C06_texts",
    "Verif.Props.C06_calendar",
    "Verif.Props.C06_rfc850_century",
    "Verif.Props.C06_rfc850_trailing",
    "Verif.Props.C06_git_seconds",
    "Verif.Props.C06_lowest",
    "Verif.Props.C06_overflow",
    "Verif.Props.C06_empty",
    "Verif.Props.C06_construct",
    "Verif.Props.C06_reads_past_end"
   ],
   "note": "Round trip for every representable time from 1900 on, all five formats, alone and through parse(), with trailing text. RFC 850 only within 1969..2068 and without trailing text, Git only if the zone offset is whole minutes: witnesses C06_rfc850_century, C06_rfc850_trailing, C06_git_seconds. Clamping fails at the lowest 0.85 s (C06_lowest); dates after 2262 overflow (C06_overflow)."
  },
  {
   "property": "C07",
   "status": "proved",
   "theorems": [
    "Verif.Props.C07_distinct",
    "Verif.Props.C07_index",
    "Verif.Props.C07_free",
    "Verif.Props.C07_smallest",
    "Verif.Props.C07_available",
    "Verif.Props.C07_withdraw",
    "Verif.Props.C07_terminates",
    "Verif.Props.C07_not_smallest"
   ],
   "note": "All interleavings of any number of processes over one shared directory of lock files (contract of open/flock: exclusive lock per file, released by close). The index is the smallest that is free whenever nobody else acts during the call; in general each smaller index was found taken at some moment of the call (C07_smallest); C07_not_smallest shows that nothing stronger can hold when another process withdraws meanwhile."
  },
  {
   "property": "C08",
   "status": "proved",
   "theorems": [
    "Verif.Props.C08_layout",
    "Verif.Props.C08_parse",
    "Verif.Props.C08_reject"
   ],
   "note": "Layout for every header; parse for every header legal at that point, rejection without consuming a byte otherwise."
  },
  {
   "property": "C09",
   "status": "proved",
   "theorems": [
    "Verif.Props.C09_masking",
    "Verif.Props.C09_involution",
    "Verif.Props.C09_unmasked"
   ],
   "note": "The alignment loop, the SIMD loop, the word loop and the byte loop are modelled separately; every address, key and way of cutting."
  },
  {
   "property": "C10",
   "status": "proved",
   "theorems": [
    "Verif.Props.C10_exact",
    "Verif.Props.C10_handshake"
   ],
   "note": "Whole frames, any number, arbitrary payloads within the limit."
  },
  {
   "property": "C11",
   "status": "partial",
   "theorems": [
    "Verif.Props.C11_partial",
    "Verif.Props.C11_violated"
   ],
   "note": "Proved for every byte string and every cut unless the first byte starts or ends a fragmented message; C11_violated shows that for those frames every cut after the second byte makes the parser reject a legal frame."
  },
  {
   "property": "C12",
   "status": "proved",
   "theorems": [
    "Verif.Props.C12_recovered",
    "Verif.Props.C12_limit",
    "Verif.Props.C12_overflow"
   ],
   "note": "Every cut of the payload; limit as an invariant; excess raises the exception."
  },
  {
   "property": "C13",
   "status": "proved",
   "theorems": [
    "Verif.Props.C13_server",
    "Verif.Props.C13_client"
   ],
   "note": "Any headers, any library behaviour."
  },
  {
   "property": "C14",
   "status": "proved",
   "theorems": [
    "Verif.Props.C14_at_most_once",
    "Verif.Props.C14_reported"
   ],
   "note": "callbacks, socket state and zlib are arbitrary; histories of any length"
  },
  {
   "property": "C15",
   "status": "partial",
   "theorems": [
    "Verif.Props.C15_cut_partial",
    "Verif.Props.C15_violated_cut",
    "Verif.Props.C15_mixed_partial",
    "Verif.Props.C15_partial",
    "Verif.Props.C15_violated_payload",
    "Verif.Props.C15_violated_header",
    "Verif.Props.C15_violated_compressed",
    "Verif.Props.C15_compressed_partial",
    "Verif.Props.C15_terminates"
   ],
   "note": "Holds when every compressed message is one frame and reads end after a frame, after the header of a frame that is not compressed, or inside the payload of a continuation or a control frame (C15_cut_partial: any mixture of compressed messages, fragmented plain messages and control frames; the others are special cases); violated when a header or the payload of a first frame is cut (C15_violated_cut: every uncompressed message in one frame whose payload is read in two parts is delivered without its first part), and for compressed messages in several frames (witnesses)."
  },
  {
   "property": "C16",
   "status": "proved",
   "theorems": [
    "Verif.Props.C16_send",
    "Verif.Props.C16_refused",
    "Verif.Props.C16_shut_down",
    "Verif.Props.C16_recovered"
   ],
   "note": "deflate is a parameter"
  },
  {
   "property": "C17",
   "status": "partial",
   "theorems": [
    "Verif.Props.C17_partial",
    "Verif.Props.C17_violated",
    "Verif.Props.C17_all",
    "Verif.Props.C17_error"
   ],
   "note": "Every non-empty list of pairs; C17_violated: the empty query string yields one nameless element."
  },
  {
   "property": "C18",
   "status": "proved",
   "theorems": [
    "Verif.Props.C18_encode_decode",
    "Verif.Props.C18_roundtrip"
   ],
   "note": "For every byte string the decoded encoding is the canonical form; identity on canonical absolute paths."
  },
  {
   "property": "C19",
   "status": "proved",
   "theorems": [
    "Verif.Props.C19_canonical",
    "Verif.Props.C19_no_dots",
    "Verif.Props.C19_malformed_partial",
    "Verif.Props.C19_absolute",
    "Verif.Props.C19_trailing_dots_survive"
   ],
   "note": "Canonical form for well-formed escapes, structure for malformed ones (C19_malformed_partial), violation witness C19_trailing_dots_survive."
  },
  {
   "property": "C20",
   "status": "proved",
   "theorems": [
    "Verif.Props.C20_parts",
    "Verif.Props.C20_complete",
    "Verif.Props.C20_reject",
    "Verif.Props.C20_failure_changes_host"
   ],
   "note": "Soundness and completeness; C20_failure_changes_host records that a rejected text may have changed the host."
  },
  {
   "property": "C21",
   "status": "partial",
   "theorems": [
    "Verif.Props.C21_meaning",
    "Verif.Props.C21_date",
    "Verif.Props.C21_token_partial",
    "Verif.Props.C21_quoted_partial",
    "Verif.Props.C21_exact",
    "Verif.Props.C21_quoted_exact_partial",
    "Verif.Props.C21_in_header",
    "Verif.Props.C21_integer",
    "Verif.Props.C21_violated"
   ],
   "note": "Texts of token characters and quoted texts, control characters and runs of spaces collapse to a space; texts that look like numbers or dates are printed as such (C21_violated); number/date routines are parameters."
  },
  {
   "property": "C22",
   "status": "proved",
   "theorems": [
    "Verif.Props.C22_canonicalize",
    "Verif.Props.C22_case",
    "Verif.Props.C22_idempotent",
    "Verif.Props.C22_compare"
   ],
   "note": ""
  },
  {
   "property": "C23",
   "status": "partial",
   "theorems": [
    "Verif.Props.C23_partial",
    "Verif.Props.C23_violated_duplicate",
    "Verif.Props.C23_violated_break"
   ],
   "note": "Headers of one line each and without their own Content-Length or Transfer-Encoding; violated by user-supplied Content-Length and by line breaks in values (witnesses)."
  },
  {
   "property": "C24",
   "status": "proved",
   "theorems": [
    "Verif.Props.C24_decodes",
    "Verif.Props.C24_only",
    "Verif.Props.C24_open",
    "Verif.Props.C24_start"
   ],
   "note": ""
  },
  {
   "property": "C25",
   "status": "proved",
   "theorems": [
    "Verif.Props.C25_output",
    "Verif.Props.C25_output_any_time"
   ],
   "note": ""
  },
  {
   "property": "C26",
   "status": "partial",
   "theorems": [
    "Verif.Props.C26_refused_partial",
    "Verif.Props.C26_drained",
    "Verif.Props.C26_state",
    "Verif.Props.C26_race_loses_data"
   ],
   "note": "Everything accepted is sent before a graceful shutdown (C26_drained). Calls of tcp_send that begin after tcp_shut_down returned are refused; a call in progress at that time may return true although its data is never sent (C26_race_loses_data)."
  },
  {
   "property": "C27",
   "status": "proved",
   "theorems": [
    "Verif.Props.C27_monotone",
    "Verif.Props.C27_order"
   ],
   "note": ""
  },
  {
   "property": "C28",
   "status": "partial",
   "theorems": [
    "Verif.Props.C28_all_shown",
    "Verif.Props.C28_kept_partial",
    "Verif.Props.C28_buffer_partial",
    "Verif.Props.C28_bytes_lost"
   ],
   "note": "Holds if callbacks consume everything; C28_bytes_lost shows the loss otherwise."
  },
  {
   "property": "C29",
   "status": "proved",
   "theorems": [
    "Verif.Props.C29_reaches",
    "Verif.Props.C29_none",
    "Verif.Props.C29_no_failure",
    "Verif.Props.C29_free_slots",
    "Verif.Props.C29_delivery",
    "Verif.Props.C29_stale_event"
   ],
   "note": "C29_stale_event: an event buffered for a destroyed socket may be delivered to a new one at the same address."
  },
  {
   "property": "C30",
   "status": "proved",
   "theorems": [
    "Verif.Props.C30_after_event",
    "Verif.Props.C30_history"
   ],
   "note": ""
  },
  {
   "property": "C31",
   "status": "proved",
   "theorems": [
    "Verif.Props.C31_last",
    "Verif.Props.C31_once",
    "Verif.Props.C31_unregistered"
   ],
   "note": ""
  },
  {
   "property": "C32",
   "status": "proved",
   "theorems": [
    "Verif.Props.C32_never_early",
    "Verif.Props.C32_schedule",
    "Verif.Props.C32_inserted",
    "Verif.Props.C32_released",
    "Verif.Props.C32_after_release",
    "Verif.Props.C32_earliest",
    "Verif.Props.C32_not_lost"
   ],
   "note": "After a release, at most the one callback that the timer thread was already about to make still begins (C32_after_release)."
  },
  {
   "property": "C33",
   "status": "proved",
   "theorems": [
    "Verif.Props.C33_at_most_once",
    "Verif.Props.C33_not_lost",
    "Verif.Props.C33_exactly_once",
    "Verif.Props.C33_launched",
    "Verif.Props.C33_abandoned",
    "Verif.Props.C33_skipped",
    "Verif.Props.C33_batches",
    "Verif.Props.C33_not_concurrent",
    "Verif.Props.C33_progress",
    "Verif.Props.C33_last_in_first_out",
    "Verif.Props.C33_deadlock"
   ],
   "note": "C33_last_in_first_out documents the order within a batch; C33_deadlock: launching a task again while it runs can block all threads."
  },
  {
   "property": "C34",
   "status": "proved",
   "theorems": [
    "Verif.Props.C34_not_early",
    "Verif.Props.C34_woken",
    "Verif.Props.C34_resumed",
    "Verif.Props.C34_scan",
    "Verif.Props.C34_due",
    "Verif.Props.C34_sleep",
    "Verif.Props.C34_timeout",
    "Verif.Props.C34_sleep_timeout"
   ],
   "note": "Sequentially consistent interleavings; wake-up, resumption, scan and sleep bounds."
  },
  {
   "property": "C35",
   "status": "proved",
   "theorems": [
    "Verif.Props.C35_exclusive",
    "Verif.Props.C35_no_wild_access",
    "Verif.Props.C35_not_cached_and_used",
    "Verif.Props.C35_no_leak"
   ],
   "note": "Sequentially consistent interleavings of any number of threads; also no wild access and no leak."
  },
  {
   "property": "C36",
   "status": "proved",
   "theorems": [
    "Verif.Props.C36_initializer",
    "Verif.Props.C36_once",
    "Verif.Props.C36_all_notified",
    "Verif.Props.C36_no_late_waiter",
    "Verif.Props.C36_successful",
    "Verif.Props.C36_foreign"
   ],
   "note": "C36_foreign: an initializer that throws something not derived from std::exception may run again."
  },
  {
   "property": "C37",
   "status": "partial",
   "theorems": [
    "Verif.Props.C37_incomplete_partial",
    "Verif.Props.C37_not_rethrown",
    "Verif.Props.C37_yield_ignores_failure"
   ],
   "note": "Violated: check_success() on a failed future returns normally (C37_not_rethrown), and so does yield() (C37_yield_ignores_failure). Proved: checking an uncompleted future throws."
  },
  {
   "property": "C38",
   "status": "partial",
   "theorems": [
    "Verif.Props.C38_owner",
    "Verif.Props.C38_return",
    "Verif.Props.C38_closed",
    "Verif.Props.C38_use",
    "Verif.Props.C38_disjoint",
    "Verif.Props.C38_service",
    "Verif.Props.C38_reset",
    "Verif.Props.C38_session_partial",
    "Verif.Props.C38_bound_partial",
    "Verif.Props.C38_bound_constant",
    "Verif.Props.C38_giveBack",
    "Verif.Props.C38_allocate",
    "Verif.Props.C38_services",
    "Verif.Props.C38_shrink",
    "Verif.Props.C38_expired",
    "Verif.Props.C38_password",
    "Verif.Props.C38_redis_session"
   ],
   "note": "Ownership, service, reset refusal and bounds are proved for all histories. Missing: the size is exceeded after it has been made smaller (C38_shrink), an expired connection may be given out (C38_expired), passwords are not compared (C38_password), and Redis sessions are not reset (C38_redis_session)."
  },
  {
   "property": "C39",
   "status": "partial",
   "theorems": [
    "Verif.Props.C39_order_partial",
    "Verif.Props.C39_not_concurrent_partial",
    "Verif.Props.C39_one_fiber_partial",
    "Verif.Props.C39_stream_partial",
    "Verif.Props.C39_pending_partial",
    "Verif.Props.C39_delivered_partial",
    "Verif.Props.C39_ignored_partial",
    "Verif.Props.C39_reuse",
    "Verif.Props.C39_error_type",
    "Verif.Props.C39_dangling"
   ],
   "note": "Proved for every interleaving in which no object is created at the address of a destroyed one while a fiber for the latter has not returned: order, exactly once, close last, no concurrency, no lost wake-up, stream data. Without that proviso the property fails (C39_reuse); an uninitialized event type can swallow the closure notification (C39_error_type), and lack of memory destroys a queue in use (C39_dangling)."
  },
  {
   "property": "C40",
   "status": "proved",
   "theorems": [
    "Verif.Props.C40_ipv4",
    "Verif.Props.C40_ipv6",
    "Verif.Props.C40_covered"
   ],
   "note": ""
  },
  {
   "property": "C41",
   "status": "proved",
   "theorems": [
    "Verif.Props.C41_order",
    "Verif.Props.C41_total_order",
    "Verif.Props.C41_equals",
    "Verif.Props.C41_v4mapped"
   ],
   "note": ""
  },
  {
   "property": "C42",
   "status": "proved",
   "theorems": [
    "Verif.Props.C42_structure",
    "Verif.Props.C42_value",
    "Verif.Props.C42_status"
   ],
   "note": "hiredis replies as trees of any depth and width; the explicit-stack loop is proved equal to recursion."
  },
  {
   "property": "C43",
   "status": "proved",
   "theorems": [
    "Verif.Props.C43_literal",
    "Verif.Props.C43_append",
    "Verif.Props.C43_two",
    "Verif.Props.C43_datetime"
   ],
   "note": "All byte strings. The reader is MySQL's grammar of string literals with backslash escapes enabled and a character set such as utf8mb4."
  },
  {
   "property": "C44",
   "status": "partial",
   "theorems": [
    "Verif.Props.C44_instant_partial",
    "Verif.Props.C44_offset",
    "Verif.Props.C44_lowest",
    "Verif.Props.C44_uninitialized"
   ],
   "note": "Proved for all zones and instants that the property names, except the first 0.85 s that a 64-bit count of nanoseconds can hold (C44_lowest). C44_offset gives the exact error for all other offsets; C44_uninitialized shows that values without an encoded offset depend on uninitialized memory."
  },
  {
   "property": "C45",
   "status": "partial",
   "theorems": [
    "Verif.Props.C45_detects",
    "Verif.Props.C45_total",
    "Verif.Props.C45_converges_partial",
    "Verif.Props.C45_created_partial",
    "Verif.Props.C45_needed",
    "Verif.Props.C45_other_columns",
    "Verif.Props.C45_other_indexes",
    "Verif.Props.C45_primary_multi",
    "Verif.Props.C45_primary_case",
    "Verif.Props.C45_primary_nullable",
    "Verif.Props.C45_display_width",
    "Verif.Props.C45_nan",
    "Verif.Props.C45_column_case",
    "Verif.Props.C45_type_error"
   ],
   "note": "Equivalence of 'nothing to alter' with an independent definition of a matching table, for reports in any order; convergence after ALTER and after CREATE for sound structures and servers that report types as the program expects; every part of an alteration is needed, and other columns and indexes are left as they are. Witnesses for the structures and servers for which the code does not converge."
  },
  {
   "property": "C46",
   "status": "partial",
   "theorems": [
    "Verif.Props.C46_pack",
    "Verif.Props.C46_roundtrip_partial",
    "Verif.Props.C46_misplaced",
    "Verif.Props.C46_one_element",
    "Verif.Props.C46_overflow"
   ],
   "note": "Packing is exact for all documents (C46_pack). Unpacking is proved for documents in which only the last element of each container is a nonempty container (C46_roundtrip_partial); for others it is false of the code: fetch_reply() resumes in the nested container instead of the enclosing one (C46_misplaced, C46_one_element). Date-times that do not fit in nanoseconds overflow (C46_overflow)."
  },
  {
   "property": "C47",
   "status": "proved",
   "theorems": [
    "Verif.Props.C47_mongo",
    "Verif.Props.C47_redis"
   ],
   "note": "Explicit-stack printers of Redis and Mongo values equal the recursive grammar, for trees of any depth; how one scalar or key is printed is a parameter for Mongo and modelled for Redis."
  },
  {
   "property": "C48",
   "status": "proved",
   "theorems": [
    "Verif.Props.C48_spelled",
    "Verif.Props.C48_only_spelled",
    "Verif.Props.C48_null",
    "Verif.Props.C48_rest_ignored"
   ],
   "note": "every tree, path and spacing; text after a missing part is not examined (C48_rest_ignored)"
  },
  {
   "property": "C49",
   "status": "proved",
   "theorems": [
    "Verif.Props.C49_boolean",
    "Verif.Props.C49_integer",
    "Verif.Props.C49_real",
    "Verif.Props.C49_string",
    "Verif.Props.C49_array_size"
   ],
   "note": ""
  },
  {
   "property": "C50",
   "status": "proved",
   "theorems": [
    "Verif.Props.C50_one_line",
    "Verif.Props.C50_no_controls",
    "Verif.Props.C50_verbatim",
    "Verif.Props.C50_text",
    "Verif.Props.C50_colors"
   ],
   "note": "tag, color, thread name, function and file are assumed free of control characters; the message text is arbitrary. C1 controls encoded in UTF-8 are not escaped, nor claimed"
  },
  {
   "property": "C51",
   "status": "proved",
   "theorems": [
    "Verif.Props.C51_in_order",
    "Verif.Props.C51_written_in_order",
    "Verif.Props.C51_dropped",
    "Verif.Props.C51_synchronize",
    "Verif.Props.C51_not_lost",
    "Verif.Props.C51_no_deadlock"
   ],
   "note": "any number of threads; enqueue, thread_loop, synchronize and reload interleave at lock granularity"
  },
  {
   "property": "C52",
   "status": "proved",
   "theorems": [
    "Verif.Props.C52_reduce360",
    "Verif.Props.C52_reduce180",
    "Verif.Props.C52_range",
    "Verif.Props.C52_lowest_wrong"
   ],
   "note": "All ints except the lowest 488/309, where C52_lowest_wrong shows the result is not congruent."
  },
  {
   "property": "C53",
   "status": "proved",
   "theorems": [
    "Verif.Props.C53_implode",
    "Verif.Props.C53_explode_implode",
    "Verif.Props.C53_explode_padded",
    "Verif.Props.C53_explode_limit",
    "Verif.Props.C53_limit_bound",
    "Verif.Props.C53_leading_delimiter_wrong",
    "Verif.Props.C53_blank_piece_wrong"
   ],
   "note": "Round trip for non-blank trimmed segments, padding, limit; witnesses for leading delimiters and blank pieces."
  },
  {
   "property": "C54",
   "status": "proved",
   "theorems": [
    "Verif.Props.C54_hex_encode"
   ],
   "note": ""
  },
  {
   "property": "C55",
   "status": "proved",
   "theorems": [
    "Verif.Props.C55_splice",
    "Verif.Props.C55_splice_self"
   ],
   "note": ""
  },
  {
   "property": "C56",
   "status": "partial",
   "theorems": [
    "Verif.Props.C56_slice_partial",
    "Verif.Props.C56_past_end",
    "Verif.Props.C56_error",
    "Verif.Props.C56_limit",
    "Verif.Props.C56_limit_fails"
   ],
   "note": "All files, offsets, limits and short reads; limits of 2^63 and above throw instead of reading to the end (C56_limit_fails)."
  },
  {
   "property": "C57",
   "status": "proved",
   "theorems": [
    "Verif.Props.C57_addresses",
    "Verif.Props.C57_failure"
   ],
   "note": "getaddrinfo() results are arbitrary lists."
  },
  {
   "property": "C58",
   "status": "partial",
   "theorems": [
    "Verif.Props.C58_map_partial",
    "Verif.Props.C58_failure",
    "Verif.Props.C58_relocation",
    "Verif.Props.C58_short",
    "Verif.Props.C58_probing"
   ],
   "note": "Proved under the contract that erasing from the map while iterating moves no other element (the map is in an empty submodule and cannot be read); C58_relocation shows that the loop skips keys for a map with another contract, although such a map keeps all other elements when one is erased (C58_probing). A reply of the wrong length is covered by C58_short."
  },
  {
   "property": "C59",
   "status": "proved",
   "theorems": [
    "Verif.Props.C59_header_list"
   ],
   "note": ""
  },
  {
   "property": "C60",
   "status": "proved",
   "theorems": [
    "Verif.Props.C60_terminates",
    "Verif.Props.C60_progress",
    "Verif.Props.C60_next_element",
    "Verif.Props.C60_error"
   ],
   "note": ""
  },
  {
   "property": "C61",
   "status": "partial",
   "theorems": [
    "Verif.Props.C61_agree_partial",
    "Verif.Props.C61_request",
    "Verif.Props.C61_violated"
   ],
   "note": "Requires that the client's configured compression level is not zero; C61_violated shows the disagreement otherwise."
  },
  {
   "property": "C62",
   "status": "partial",
   "theorems": [
    "Verif.Props.C62_text",
    "Verif.Props.C62_fits",
    "Verif.Props.C62_constructor",
    "Verif.Props.C62_constructor_rejects_partial",
    "Verif.Props.C62_constructor_accepts_empty"
   ],
   "note": "Proved: text round trip, length, constructor. Missing: rejection of the empty text, which the code accepts (witness C62_constructor_accepts_empty)."
  },
  {
   "property": "C63",
   "status": "proved",
   "theorems": [
    "Verif.Props.C63_connected_once"
   ],
   "note": ""
  },
  {
   "property": "C64",
   "status": "proved",
   "theorems": [
    "Verif.Props.C64_life",
    "Verif.Props.C64_one_at_a_time",
    "Verif.Props.C64_not_lost"
   ],
   "note": ""
  },
  {
   "property": "C65",
   "status": "partial",
   "theorems": [
    "Verif.Props.C65_not_starved_partial",
    "Verif.Props.C65_starved"
   ],
   "note": "Proved if both timeouts are positive and no fiber is launched with an earlier time; C65_starved: a warning timeout of zero starves a fiber."
  },
  {
   "property": "C66",
   "status": "partial",
   "theorems": [
    "Verif.Props.C66_not_blocked_partial",
    "Verif.Props.C66_blocked"
   ],
   "note": "Violated while an initializer runs (C66_blocked); otherwise the fiber thread can always go on."
  },
  {
   "property": "C67",
   "status": "proved",
   "theorems": [
    "Verif.Props.C67_messages",
    "Verif.Props.C67_limit"
   ],
   "note": "zlib is a contract (zlib.h), shown to be satisfiable by an instance; a message is one frame, as sent by the code (fragments received from others are in C15)"
  },
  {
   "property": "C68",
   "status": "proved",
   "theorems": [
    "Verif.Props.C68_deflate",
    "Verif.Props.C68_flush",
    "Verif.Props.C68_finish",
    "Verif.Props.C68_inflate",
    "Verif.Props.C68_inflate_finish",
    "Verif.Props.C68_compress",
    "Verif.Props.C68_decompress",
    "Verif.Props.C68_roundtrip"
   ],
   "note": "zlib is a contract (zlib.h); not claimed: deflate() after finish(), which zlib.h does not allow although the header of the class says it returns zero"
  },
  {
   "property": "C69",
   "status": "proved",
   "theorems": [
    "Verif.Props.C69_packets",
    "Verif.Props.C69_returns",
    "Verif.Props.C69_send"
   ],
   "note": ""
  },
  {
   "property": "C70",
   "status": "partial",
   "theorems": [
    "Verif.Props.C70_connections_partial",
    "Verif.Props.C70_order",
    "Verif.Props.C70_endless"
   ],
   "note": "Proved if descriptors suffice; otherwise violated, exactly as C70_endless says"
  },
  {
   "property": "C71",
   "status": "partial",
   "theorems": [
    "Verif.Props.C71_order",
    "Verif.Props.C71_not_concurrent",
    "Verif.Props.C71_pending",
    "Verif.Props.C71_delivered",
    "Verif.Props.C71_alive",
    "Verif.Props.C71_ignored",
    "Verif.Props.C71_progress",
    "Verif.Props.C71_stop_partial",
    "Verif.Props.C71_after_stop"
   ],
   "note": "All but the last part proved; that is violated (C71_after_stop) and proved if no packet is being received"
  },
  {
   "property": "C72",
   "status": "proved",
   "theorems": [
    "Verif.Props.C72_assemble",
    "Verif.Props.C72_complete",
    "Verif.Props.C72_regroup",
    "Verif.Props.C72_payload"
   ],
   "note": "all divisions into pieces"
  },
  {
   "property": "C73",
   "status": "partial",
   "theorems": [
    "Verif.Props.C73_origin_partial",
    "Verif.Props.C73_absolute_partial",
    "Verif.Props.C73_sound_partial",
    "Verif.Props.C73_url_in_query",
    "Verif.Props.C73_at_in_query"
   ],
   "note": "violated by the code: paths with \"://\" in the query are rejected (C73_url_in_query), \"@\" in the query of a URI without path (C73_at_in_query); proved for all other targets"
  },
  {
   "property": "C74",
   "status": "partial",
   "theorems": [
    "Verif.Props.C74_request_partial",
    "Verif.Props.C74_proxy_partial",
    "Verif.Props.C74_ipv6"
   ],
   "note": "violated by the code for IPv6 addresses (C74_ipv6) and through C73; proved for all other requests"
  },
  {
   "property": "C75",
   "status": "partial",
   "theorems": [
    "Verif.Props.C75_order_partial",
    "Verif.Props.C75_order",
    "Verif.Props.C75_status",
    "Verif.Props.C75_after_error",
    "Verif.Props.C75_no_host",
    "Verif.Props.C75_proxy",
    "Verif.Props.C75_limit"
   ],
   "note": "strict order is proved for histories without an error with status 400, up to the first exception; the code violates the rest (C75_no_host, C75_proxy, C75_limit)"
  },
  {
   "property": "C76",
   "status": "partial",
   "theorems": [
    "Verif.Props.C76_pieces_partial",
    "Verif.Props.C76_switch",
    "Verif.Props.C76_tunnel"
   ],
   "note": "for derived classes that leave the payload alone and do not switch protocols within a request; the code violates it otherwise (C76_switch, C76_tunnel)"
  },
  {
   "property": "C77",
   "status": "proved",
   "theorems": [
    "Verif.Props.C77_delivery",
    "Verif.Props.C77_switch"
   ],
   "note": ""
  },
  {
   "property": "C78",
   "status": "partial",
   "theorems": [
    "Verif.Props.C78_reduce_partial",
    "Verif.Props.C78_least_violated",
    "Verif.Props.C78_trig_partial",
    "Verif.Props.C78_least_sine_violated"
   ],
   "note": "proved for all ints but the 488 least ones, for which the code is wrong (C78_least_violated)"
  },
  {
   "property": "C79",
   "status": "partial",
   "theorems": [
    "Verif.Props.C79_direction_partial",
    "Verif.Props.C79_total_partial",
    "Verif.Props.C79_infinite_violated",
    "Verif.Props.C79_360_violated",
    "Verif.Props.C79_nearest_violated"
   ],
   "note": "within 0.51 degrees for all non-zero vectors; nearest degree, the range and infinite pairs are violated by the code"
  },
  {
   "property": "C80",
   "status": "proved",
   "theorems": [
    "Verif.Props.C80_polar",
    "Verif.Props.C80_near",
    "Verif.Props.C80_rotate",
    "Verif.Props.C80_angle"
   ],
   "note": "for every rounding that satisfies Spec.Rounds"
  },
  {
   "property": "C81",
   "status": "partial",
   "theorems": [
    "Verif.Props.C81_json_partial",
    "Verif.Props.C81_escape_violated",
    "Verif.Props.C81_escape_false",
    "Verif.Props.C81_escape_text",
    "Verif.Props.C81_binary",
    "Verif.Props.C81_oid"
   ],
   "note": "texts of printable ASCII characters and characters with short escapes are read back, in values of any depth; for every other text the output is not JSON (violated); floating-point numbers are not modelled"
  },
  {
   "property": "C82",
   "status": "partial",
   "theorems": [
    "Verif.Props.C82_assemble_partial",
    "Verif.Props.C82_reason_unlimited",
    "Verif.Props.C82_complete",
    "Verif.Props.C82_regroup",
    "Verif.Props.C82_payload"
   ],
   "note": "the pieces make no difference; the limit is not applied to a reason without headers"
  },
  {
   "property": "C83",
   "status": "partial",
   "theorems": [
    "Verif.Props.C83_order_partial",
    "Verif.Props.C83_hang",
    "Verif.Props.C83_hang_example",
    "Verif.Props.C83_limit"
   ],
   "note": "for libraries that are ready for a new message after the end of the stream, up to the first exception; the others do not return (C83_hang); after an exception see C83_limit"
  },
  {
   "property": "C84",
   "status": "partial",
   "theorems": [
    "Verif.Props.C84_pieces_partial",
    "Verif.Props.C84_tunnel"
   ],
   "note": "for classes that leave the payload in the buffer; for the others see C85"
  },
  {
   "property": "C85",
   "status": "proved",
   "theorems": [
    "Verif.Props.C85_delivery",
    "Verif.Props.C85_last",
    "Verif.Props.C85_switch"
   ],
   "note": ""
  },
  {
   "property": "C86",
   "status": "proved",
   "theorems": [
    "Verif.Props.C86_service"
   ],
   "note": ""
  },
  {
   "property": "C87",
   "status": "proved",
   "theorems": [
    "Verif.Props.C87_conversation",
    "Verif.Props.C87_malformed",
    "Verif.Props.C87_fetch",
    "Verif.Props.C87_fetch_once",
    "Verif.Props.C87_reset",
    "Verif.Props.C87_clear",
    "Verif.Props.C87_null"
   ],
   "note": "C87_null shows what becomes of a password with a null character."
  },
  {
   "property": "C88",
   "status": "partial",
   "theorems": [
    "Verif.Props.C88_arguments",
    "Verif.Props.C88_few",
    "Verif.Props.C88_safe",
    "Verif.Props.C88_conversation",
    "Verif.Props.C88_malformed",
    "Verif.Props.C88_rows_partial",
    "Verif.Props.C88_unsigned"
   ],
   "note": "Unsigned integers above 2^63-1 become negative (C88_unsigned). Date-times as in C44."
  },
  {
   "property": "C89",
   "status": "proved",
   "theorems": [
    "Verif.Props.C89_mysql",
    "Verif.Props.C89_mysql_none",
    "Verif.Props.C89_mysql_error",
    "Verif.Props.C89_mongo",
    "Verif.Props.C89_mongo_error",
    "Verif.Props.C89_mongo_end",
    "Verif.Props.C89_mongo_stale",
    "Verif.Props.C89_redis",
    "Verif.Props.C89_redis_error"
   ],
   "note": "Conversions of single values are those of C42, C46 and C88. C89_mongo_stale is about a command that cannot be composed."
  },
  {
   "property": "C90",
   "status": "partial",
   "theorems": [
    "Verif.Props.C90_session",
    "Verif.Props.C90_closing",
    "Verif.Props.C90_returns",
    "Verif.Props.C90_order",
    "Verif.Props.C90_asked",
    "Verif.Props.C90_first_partial",
    "Verif.Props.C90_violated",
    "Verif.Props.C90_violated_payload",
    "Verif.Props.C90_violated_header",
    "Verif.Props.C90_cut_partial"
   ],
   "note": "All parts are proved except that the acceptance comes before the close, which is violated after a rejected request (C90_violated) and proved otherwise; frames are delivered for reads that end at frames (C90_session), after headers, and inside continuation and control frames (C90_cut_partial), and violated for others (C90_violated_header, C15_violated_payload)."
  },
  {
   "property": "C91",
   "status": "proved",
   "theorems": [
    "Verif.Props.C91_reported",
    "Verif.Props.C91_exception",
    "Verif.Props.C91_exception_client"
   ],
   "note": "For all streams, all callbacks, and whatever arrives after exceptions."
  },
  {
   "property": "C92",
   "status": "partial",
   "theorems": [
    "Verif.Props.C92_session",
    "Verif.Props.C92_peer_request",
    "Verif.Props.C92_peer_response",
    "Verif.Props.C92_returns",
    "Verif.Props.C92_order",
    "Verif.Props.C92_asked",
    "Verif.Props.C92_first_partial",
    "Verif.Props.C92_violated",
    "Verif.Props.C92_violated_status",
    "Verif.Props.C92_violated_header",
    "Verif.Props.C92_cut_partial"
   ],
   "note": "Delivery from the handshake on, order, at most one report and close for all streams and callbacks; first-report part only for one response, because the code violates it otherwise (C92_violated, C92_violated_status); frames are delivered for reads that end at frames (C92_session), after headers, and inside continuation and control frames (C92_cut_partial), and violated for others (C92_violated_header, C15_violated_payload)."
  },
  {
   "property": "C93",
   "status": "proved",
   "theorems": [
    "Verif.Props.C93_reported"
   ],
   "note": "For all streams, all callbacks, and whatever arrives after exceptions."
  },
  {
   "property": "C94",
   "status": "partial",
   "theorems": [
    "Verif.Props.C94_prefix_partial",
    "Verif.Props.C94_delivered_partial",
    "Verif.Props.C94_stream_partial",
    "Verif.Props.C94_stream_end_partial"
   ],
   "note": "The code violates the full property when a session gets the address of another one for which a fiber is still waiting (see C39): proved for all runs in which this does not happen."
  },
  {
   "property": "C95",
   "status": "partial",
   "theorems": [
    "Verif.Props.C95_server_partial",
    "Verif.Props.C95_server_end_partial"
   ],
   "note": "The same restriction as for C94. Requests to proxies are excluded, see C75; so is status 101, which ends the sequence of requests."
  },
  {
   "property": "C96",
   "status": "partial",
   "theorems": [
    "Verif.Props.C96_client_partial",
    "Verif.Props.C96_client_end_partial",
    "Verif.Props.C96_head"
   ],
   "note": "The same restriction as for C94. The code violates the property for responses to HEAD requests (C96_head)."
  },
  {
   "property": "C97",
   "status": "partial",
   "theorems": [
    "Verif.Props.C97_writers",
    "Verif.Props.C97_alone_partial",
    "Verif.Props.C97_content_partial",
    "Verif.Props.C97_kept_partial",
    "Verif.Props.C97_refused",
    "Verif.Props.C97_two",
    "Verif.Props.C97_emptied"
   ],
   "note": "The code violates the full property (C97_two, C97_emptied). Proved: writers are alone; with an atomic change of locks, processes are alone and the file has the process ID or nothing."
  },
  {
   "property": "C98",
   "status": "proved",
   "theorems": [
    "Verif.Props.C98_usage",
    "Verif.Props.C98_order",
    "Verif.Props.C98_path",
    "Verif.Props.C98_status",
    "Verif.Props.C98_success"
   ],
   "note": ""
  },
  {
   "property": "C99",
   "status": "partial",
   "theorems": [
    "Verif.Props.C99_redis",
    "Verif.Props.C99_mongo",
    "Verif.Props.C99_mysql",
    "Verif.Props.C99_fibers",
    "Verif.Props.C99_network",
    "Verif.Props.C99_modules",
    "Verif.Props.C99_level",
    "Verif.Props.C99_whole",
    "Verif.Props.C99_reported",
    "Verif.Props.C99_logger_partial",
    "Verif.Props.C99_levels",
    "Verif.Props.C99_enabled"
   ],
   "note": "The code violates the property for the log: after a rejected file all levels are considered enabled (`C99_enabled`); everything else is proved."
  },
  {
   "property": "C100",
   "status": "partial",
   "theorems": [
    "Verif.Props.C100_order",
    "Verif.Props.C100_outcome_partial",
    "Verif.Props.C100_gone",
    "Verif.Props.C100_silent"
   ],
   "note": "The code violates the last part: a failure to resolve or connect is not reported (`C100_silent`); everything else is proved."
  },
  {
   "property": "C101",
   "status": "partial",
   "theorems": [
    "Verif.Props.C101_order_partial",
    "Verif.Props.C101_asked_partial",
    "Verif.Props.C101_end_partial",
    "Verif.Props.C101_session_partial",
    "Verif.Props.C101_cut_partial"
   ],
   "note": "The same restriction as for C94. Full delivery is proved for reads that end at frames, after headers, and inside continuation and control frames (C101_cut_partial), with compression if compressed messages are in one frame; the code violates it otherwise (C90_violated_header, C90_violated, C15_violated_payload, C15_violated_compressed)."
  },
  {
   "property": "C102",
   "status": "partial",
   "theorems": [
    "Verif.Props.C102_order_partial",
    "Verif.Props.C102_asked_partial",
    "Verif.Props.C102_end_partial",
    "Verif.Props.C102_session_partial",
    "Verif.Props.C102_cut_partial"
   ],
   "note": "The same restriction as for C94. Full delivery is proved for reads that end at frames, after headers, and inside continuation and control frames (C102_cut_partial), with compression if compressed messages are in one frame; the code violates it otherwise (C92_violated_header, C92_violated, C15_violated_payload, C15_violated_compressed)."
  },
  {
   "property": "C103",
   "status": "partial",
   "theorems": [
    "Verif.Props.C103_order_partial",
    "Verif.Props.C103_asked_partial",
    "Verif.Props.C103_end_partial",
    "Verif.Props.C103_requests_partial",
    "Verif.Props.C103_session_partial",
    "Verif.Props.C103_violated",
    "Verif.Props.C103_cut_partial"
   ],
   "note": "Order, single opening and end, and the delivery of plain requests, messages and the end are proved for all streams, divisions and schedules, with the limits of C39 and C90 (C103_session_partial and, for reads that end inside frames, C103_cut_partial); responses in order are violated (C103_violated)."
  },
  {
   "property": "C104",
   "status": "partial",
   "theorems": [
    "Verif.Props.C104_no_deadlock_partial",
    "Verif.Props.C104_progress_partial",
    "Verif.Props.C104_returns_partial",
    "Verif.Props.C104_violated_compression",
    "Verif.Props.C104_violated_task",
    "Verif.Props.C104_own_socket"
   ],
   "note": "proved when no task is executed by two threads and no session is sent compressed messages both from its own callbacks in the network thread and from elsewhere; in both cases the code deadlocks (C104_violated_compression, C104_violated_task). Network callbacks do not initialize futures; mutexes of user code and blocking system calls are not modelled."
  },
  {
   "property": "C105",
   "status": "partial",
   "theorems": [
    "Verif.Props.C105_right_partial",
    "Verif.Props.C105_known_partial",
    "Verif.Props.C105_kept_partial",
    "Verif.Props.C105_no_race_partial",
    "Verif.Props.C105_portless",
    "Verif.Props.C105_violated_race",
    "Verif.Props.C105_violated_read"
   ],
   "note": "Proved for memory that is accessed one byte at a time in some order; but threads that ask for the first time at the same time race (C105_violated_race, C105_violated_read), which C++ leaves undefined. C105_no_race_partial: there is no race once a call has returned the address with none under way."
  },
  {
   "property": "C106",
   "status": "proved",
   "theorems": [
    "Verif.Props.C106_groups",
    "Verif.Props.C106_options",
    "Verif.Props.C106_join",
    "Verif.Props.C106_leave"
   ],
   "note": "For all histories of calls and failures."
  },
  {
   "property": "C107",
   "status": "partial",
   "theorems": [
    "Verif.Props.C107_received_partial",
    "Verif.Props.C107_violated_limit"
   ],
   "note": "Proved for every interleaving and every division into reads of whole frames, provided that no compressed frame is longer than the limit of the receiver. Violated for frames split between reads (C15_violated_payload, C15_violated_header) and for compressed forms longer than the limit (C107_violated_limit)."
  },
  {
   "property": "C108",
   "status": "proved",
   "theorems": [
    "Verif.Props.C108_contract",
    "Verif.Props.C108_defined",
    "Verif.Props.C108_earliest",
    "Verif.Props.C108_sleep",
    "Verif.Props.C108_awake",
    "Verif.Props.C108_progress",
    "Verif.Props.C108_refines",
    "Verif.Props.C108_fires",
    "Verif.Props.C108_fibers_defined",
    "Verif.Props.C108_fibers_earliest",
    "Verif.Props.C108_fibers_sleep"
   ],
   "note": "heap functions and the condition variable are contracts"
  },
  {
   "property": "C109",
   "status": "partial",
   "theorems": [
    "Verif.Props.C109_create_partial",
    "Verif.Props.C109_alter_partial",
    "Verif.Props.C109_show_partial",
    "Verif.Props.C109_violated"
   ],
   "note": "Proved for all structures whose names have no backticks and which have a column that is not dropped; violated for the others (C109_violated). How doubles are printed is a parameter."
  },
  {
   "property": "C110",
   "status": "partial",
   "theorems": [
    "Verif.Props.C110_connect",
    "Verif.Props.C110_refuses_partial",
    "Verif.Props.C110_violated_empty",
    "Verif.Props.C110_violated_fragment",
    "Verif.Props.C110_attempts",
    "Verif.Props.C110_host_partial",
    "Verif.Props.C110_websocket_partial",
    "Verif.Props.C110_certificate_partial",
    "Verif.Props.C110_violated_ipv6",
    "Verif.Props.C110_violated_ipv6_anyone",
    "Verif.Props.C110_violated_ssl",
    "Verif.Props.C110_violated_long"
   ],
   "note": "Addresses without brackets and fragments, of HTTP(S) and WebSocket clients, are covered in full, as is the choice of host and port for all of them. The code accepts an empty address and fragments; loses the brackets of IPv6 addresses, so that the Host header is wrong and the name in the certificate is not verified; and does not verify names for hosts of more than 253 characters and in SSL clients (witnesses beside the theorems)."
  },
  {
   "property": "C111",
   "status": "proved",
   "theorems": [
    "Verif.Props.C111_not_killed",
    "Verif.Props.C111_status",
    "Verif.Props.C111_prompt",
    "Verif.Props.C111_bounded",
    "Verif.Props.C111_goes_on",
    "Verif.Props.C111_logs",
    "Verif.Props.C111_pid_file"
   ],
   "note": "Composition of signal handlers, main loop, queue of fibers, logger and PID file; fairness of mutexes and of the scheduler of the system is not modelled: what is proved is that some thread can always go on and that the main thread has a bounded number of steps left."
  },
  {
   "property": "C112",
   "status": "partial",
   "theorems": [
    "Verif.Props.C112_requests",
    "Verif.Props.C112_responses_partial",
    "Verif.Props.C112_exchange_partial",
    "Verif.Props.C112_contract",
    "Verif.Props.C112_chunked_close"
   ],
   "note": "Responses in chunks that say Connection: close are excluded, because the code sends only their heads (C112_chunked_close). Requests through proxies and CONNECT are left to C74 and C110. That http-parser reads valid messages is an assumption; C112_contract shows that it can be met."
  },
  {
   "property": "C113",
   "status": "partial",
   "theorems": [
    "Verif.Props.C113_requests_partial",
    "Verif.Props.C113_requests_end_partial",
    "Verif.Props.C113_exchange_partial",
    "Verif.Props.C113_exchange_end_partial"
   ],
   "note": "The same restriction as for C94; not for HEAD requests (violated, C96_head) and for answers in chunks that say Connection: close (violated, C112_chunked_close)."
  },
  {
   "property": "C114",
   "status": "partial",
   "theorems": [
    "Verif.Props.C114_handshake_partial",
    "Verif.Props.C114_to_server_partial",
    "Verif.Props.C114_to_client_partial",
    "Verif.Props.C114_answer"
   ],
   "note": "The code violates the full property for reads that end inside a frame, for addresses in brackets, for compressed messages that exceed the limit, and if the compression level of the client is zero (C61, C90, C92, C107, C110)."
  },
  {
   "property": "C115",
   "status": "partial",
   "theorems": [
    "Verif.Props.C115_last_partial",
    "Verif.Props.C115_all_partial",
    "Verif.Props.C115_stale",
    "Verif.Props.C115_integer",
    "Verif.Props.C115_double",
    "Verif.Props.C115_date",
    "Verif.Props.C115_text",
    "Verif.Props.C115_cleared",
    "Verif.Props.C115_parsed",
    "Verif.Props.C115_token",
    "Verif.Props.C115_unquoted",
    "Verif.Props.C115_quoted",
    "Verif.Props.C115_not_null_partial",
    "Verif.Props.C115_null_date",
    "Verif.Props.C115_swap"
   ],
   "note": "The full property is violated (C115_stale, C115_null_date): assigning a text leaves old numbers in place, and parsed dates are null. Proved: what is said by those who ask first is right for every history, and everything is right for all other calls."
  },
  {
   "property": "C116",
   "status": "partial",
   "theorems": [
    "Verif.Props.C116_data",
    "Verif.Props.C116_once",
    "Verif.Props.C116_order_partial",
    "Verif.Props.C116_presupposed_partial",
    "Verif.Props.C116_no_opening"
   ],
   "note": "The data are told in order and once, and opening and closure at most once, always (C116_data, C116_once); that the opening comes before data only if nobody shuts the socket down before it, because the code violates it (C116_no_opening), and if the system reports writability first."
  },
  {
   "property": "C117",
   "status": "partial",
   "theorems": [
    "Verif.Props.C117_received",
    "Verif.Props.C117_last",
    "Verif.Props.C117_end",
    "Verif.Props.C117_back",
    "Verif.Props.C117_callback_partial",
    "Verif.Props.C117_complete_partial"
   ],
   "note": "Proved for both directions between sockets (C117_received, C117_end, C117_back); up to the callback only if no object is created at an address for which a fiber has not returned (as C39)."
  },
  {
   "property": "C118",
   "status": "proved",
   "theorems": [
    "Verif.Props.C118_order",
    "Verif.Props.C118_sent",
    "Verif.Props.C118_complete",
    "Verif.Props.C118_faithful",
    "Verif.Props.C118_callback"
   ],
   "note": "For all networks that do not change packets; that UDP does not is an assumption."
  },
  {
   "property": "C119",
   "status": "proved",
   "theorems": [
    "Verif.Props.C119_start",
    "Verif.Props.C119_schedule",
    "Verif.Props.C119_never_early",
    "Verif.Props.C119_complete",
    "Verif.Props.C119_punctual",
    "Verif.Props.C119_callback"
   ],
   "note": ""
  },
  {
   "property": "C120",
   "status": "partial",
   "theorems": [
    "Verif.Props.C120_defined",
    "Verif.Props.C120_kept",
    "Verif.Props.C120_freed",
    "Verif.Props.C120_terminates",
    "Verif.Props.C120_depth_partial",
    "Verif.Props.C120_recursion"
   ],
   "note": "No access to freed storage, no leak, no loss of what is still referred to and termination are proved for any number of threads (C120_defined, C120_kept, C120_freed, C120_terminates). That the recursion is bounded is proved where one thread destroys and memory does not run out (C120_depth_partial); with two threads it is false (C120_recursion)."
  },
  {
   "property": "C121",
   "status": "partial",
   "theorems": [
    "Verif.Props.C121_answered",
    "Verif.Props.C121_only",
    "Verif.Props.C121_in_order_partial",
    "Verif.Props.C121_violated_close",
    "Verif.Props.C121_violated_status"
   ],
   "note": "Proved: every reported PING has been answered, in every history; nothing else is sent but one CLOSE frame; with whole frames per read, PONGs and PINGs correspond one by one, in order. Violated, with witnesses: the answer to a CLOSE frame, and the status after an error. Missing: that PINGs are heard when reads end inside frames (see C15)."
  },
  {
   "property": "C122",
   "status": "partial",
   "theorems": [
    "Verif.Props.C122_page_partial",
    "Verif.Props.C122_contract",
    "Verif.Props.C122_last",
    "Verif.Props.C122_violated_status",
    "Verif.Props.C122_violated_head"
   ],
   "note": "Proved for all statuses but 204 and 304, when the page is not for a HEAD request; violated in these cases, with witnesses. What http-parser does with responses that end with the connection is a contract, which is shown to be satisfiable."
  },
  {
   "property": "C123",
   "status": "partial",
   "theorems": [
    "Verif.Props.C123_redis",
    "Verif.Props.C123_redis_once",
    "Verif.Props.C123_mysql",
    "Verif.Props.C123_mysql_once",
    "Verif.Props.C123_mongo",
    "Verif.Props.C123_mongo_once",
    "Verif.Props.C123_between",
    "Verif.Props.C123_order",
    "Verif.Props.C123_resumed",
    "Verif.Props.C123_view",
    "Verif.Props.C123_silent",
    "Verif.Props.C123_stale_password"
   ],
   "note": "The code violates the reporting of errors (C123_silent, after C37) and the use of a corrected password (C123_stale_password); everything else is proved. Rows of MySQL results with date-times: see C89."
  },
  {
   "property": "C124",
   "status": "proved",
   "theorems": [
    "Verif.Props.C124_exception",
    "Verif.Props.C124_message",
    "Verif.Props.C124_logged"
   ],
   "note": ""
  },
  {
   "property": "C125",
   "status": "partial",
   "theorems": [
    "Verif.Props.C125_batch",
    "Verif.Props.C125_only",
    "Verif.Props.C125_complete",
    "Verif.Props.C125_lines_partial",
    "Verif.Props.C125_torn"
   ],
   "note": "C125_torn shows what becomes of the next entry when the operating system accepts only a part of one; all else is proved for every behaviour of the operating system."
  },
  {
   "property": "C126",
   "status": "proved",
   "theorems": [
    "Verif.Props.C126_in_order",
    "Verif.Props.C126_content",
    "Verif.Props.C126_synchronize",
    "Verif.Props.C126_closed"
   ],
   "note": "The contents of log files for all interleavings of threads and loading of configurations, and what synchronize() guarantees."
  },
  {
   "property": "C127",
   "status": "proved",
   "theorems": [
    "Verif.Props.C127_fiber",
    "Verif.Props.C127_yield",
    "Verif.Props.C127_synchronize",
    "Verif.Props.C127_logged",
    "Verif.Props.C127_written",
    "Verif.Props.C127_launch",
    "Verif.Props.C127_task",
    "Verif.Props.C127_timer"
   ],
   "note": "Logger: synchronize() returns, messages are processed and written. Task scheduler: tasks are executed, launch() returns. Timers fire at all times of their schedules. Fibers begin, and are resumed from yield(). In every fair execution."
  },
  {
   "property": "C128",
   "status": "proved",
   "theorems": [
    "Verif.Props.C128_completes",
    "Verif.Props.C128_finalizes",
    "Verif.Props.C128_notifies",
    "Verif.Props.C128_fiber"
   ],
   "note": "Queries complete, their waiters are notified, their executions end, and fibers are resumed, in every fair execution."
  },
  {
   "property": "C129",
   "status": "partial",
   "theorems": [
    "Verif.Props.C129_upgrade_cut_partial",
    "Verif.Props.C129_delivers",
    "Verif.Props.C129_sockets_partial",
    "Verif.Props.C129_stream_partial",
    "Verif.Props.C129_requests_partial",
    "Verif.Props.C129_responses_partial",
    "Verif.Props.C129_events_partial",
    "Verif.Props.C129_messages_cut_partial",
    "Verif.Props.C129_replies_cut_partial",
    "Verif.Props.C129_messages_partial",
    "Verif.Props.C129_replies_partial",
    "Verif.Props.C129_plain_partial",
    "Verif.Props.C129_upgrade_partial"
   ],
   "note": "For sessions, only if no object is created at an address for which a fiber has not returned (C39_reuse shows that the code does not prevent that), not for responses to HEAD requests (C96_head), and for WebSocket only if no read ends inside a header or inside the first frame of a message (C90_violated_header, C92_violated_header, C15_violated_payload) and compressed messages are in one frame (C15_violated_compressed). For packets and ticks it holds in full."
  },
  {
   "property": "C130",
   "status": "proved",
   "theorems": [
    "Verif.Props.C130_reports",
    "Verif.Props.C130_flushes",
    "Verif.Props.C130_shuts",
    "Verif.Props.C130_returns",
    "Verif.Props.C130_send"
   ],
   "note": "for the model of stream sockets, in which EPOLLOUT is assumed to be reported again and again while data are left (the kernel reports it when a send that would have blocked becomes possible)"
  },
  {
   "property": "C131",
   "status": "proved",
   "theorems": [
    "Verif.Props.C131_delivers",
    "Verif.Props.C131_end"
   ],
   "note": "What TCP does with the streams, what epoll_wait() reports and that threads are scheduled fairly is assumed (Model/TcpLink.lean, Spec/LinkLive.lean)."
  },
  {
   "property": "C132",
   "status": "partial",
   "theorems": [
    "Verif.Props.C132_callback_partial",
    "Verif.Props.C132_end_partial",
    "Verif.Props.C132_requests_partial",
    "Verif.Props.C132_responses_partial"
   ],
   "note": "Only if no object is created at an address for which a fiber has not returned (C39_reuse shows that the code does not prevent that), and not for responses to HEAD requests (C96_head). That the session gets what the socket tells, and what TCP, epoll_wait() and the scheduler do, is assumed (Spec/EndToEnd.lean, Spec/LinkLive.lean)."
  }
 ]
}