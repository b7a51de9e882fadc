{"id": "C01", "title": "UUID text form round-trips", "statement": "Printing any UUID gives exactly 36 characters (8-4-4-4-12 hexadecimal digits), and parsing that text gives the same UUID back. Parsing accepts exactly the texts that start with such a 36-character form (digits in either case) and otherwise reports failure.", "quantifier": "every 16-byte UUID value and every input string", "why_tests_cant": "2^128 values and an infinite set of strings; a test samples a few, while a wrong nibble or dash position can hide in a single byte lane of the SIMD code.", "anchors": ["poseidon/src/base/uuid.cpp: UUID::parse_partial, UUID::parse, UUID::print_partial, UUID::print", "poseidon/base/uuid.hpp"]}
{"id": "C02", "title": "UUID comparison is the lexicographic byte order", "statement": "compare() returns a negative, zero or positive number exactly when the first UUID is lexicographically smaller than, equal to, or greater than the second; it is a total order consistent with equality.", "quantifier": "every pair (and triple, for transitivity) of UUIDs", "why_tests_cant": "Totality, antisymmetry and transitivity range over all triples of 128-bit values.", "anchors": ["poseidon/src/base/uuid.cpp: UUID::compare", "poseidon/base/uuid.hpp: operators"]}
{"id": "C03", "title": "Random and time-based UUIDs carry the right version and variant bits", "statement": "A v4 UUID always has version nibble 4 and variant bits 10, and its other 122 bits are exactly the random bits drawn. A v7 UUID always has version nibble 7, variant bits 10, and its first 48 bits are the millisecond timestamp.", "quantifier": "every random draw, time stamp, process id and serial number", "why_tests_cant": "The random inputs range over 2^128 values; the bits must be right for all of them.", "anchors": ["poseidon/src/base/uuid.cpp: UUID::random_v4, random_v7", "poseidon/base/uuid.hpp"]}
{"id": "C04", "title": "Consecutive v7 UUIDs of one process are strictly increasing", "statement": "Two v7 UUIDs made one after the other, while the clock does not go backwards and fewer than 4096 of them have been made in that millisecond, compare as strictly less; after 4096 in one millisecond, or when the clock steps back, this fails.", "quantifier": "every history of v7 generations (clock readings and random bits)", "why_tests_cant": "The failure needs 4097 calls in a millisecond or a clock step; a unit test cannot force the clock.", "anchors": ["poseidon/src/base/uuid.cpp: UUID::random_v7"]}
{"id": "C05", "title": "Conversion between time_point and timespec is exact", "statement": "Splitting a nanosecond system time into seconds and nanoseconds and joining them again gives the same time; the nanosecond part is in [0, 999999999]. Outside a window of 0.85 s at the very low end of the 64-bit range this holds for every time, negative ones included.", "quantifier": "every 64-bit nanosecond count", "why_tests_cant": "2^64 inputs, with the wrong ones in a tiny corner at the low end.", "anchors": ["poseidon/utils.hpp: timespec_from_system_time, system_time_from_timespec"]}
{"id": "C06", "title": "Printed dates parse back to the same second", "statement": "For each of the supported textual formats, printing an in-range second and parsing the text in the same format gives back that second; out-of-range times are clamped to the printable range 1900..9999.", "quantifier": "every time value and every format", "why_tests_cant": "About 2.5e11 seconds times five formats; leap-year and weekday errors show only on particular days.", "anchors": ["poseidon/src/base/datetime.cpp: print_*_partial, parse_*_partial"]}
{"id": "C07", "title": "Enrolled processes hold distinct, lowest-free indices", "statement": "Whenever several holders are enrolled in the same appointment file, their indices are pairwise distinct; a new holder always gets the smallest index not held at that moment; withdrawing frees exactly the holder's own index.", "quantifier": "every history of enroll/withdraw/crash by any number of processes", "why_tests_cant": "Depends on the interleaving of an unbounded number of processes.", "anchors": ["poseidon/src/base/appointment.cpp: Appointment::enroll, withdraw"]}
{"id": "C08", "title": "WebSocket frame headers round-trip on the wire", "statement": "For any FIN/RSV/opcode/mask/length combination, the encoded header has the RFC 6455 layout (minimal length form, big-endian), and the frame parser, fed with those bytes followed by anything, consumes exactly the header and recovers every field if the frame is legal at that point, and otherwise reports an error.", "quantifier": "every header (all flags, opcodes, 64-bit lengths, 32-bit keys), every trailing data", "why_tests_cant": "64-bit lengths and 32-bit keys cannot be enumerated; boundary errors at 125/126/65535/65536 are typical.", "anchors": ["poseidon/src/http/websocket_frame_header.cpp: encode", "poseidon/src/http/websocket_frame_parser.cpp: parse_frame_header_from_stream"]}
{"id": "C09", "title": "WebSocket masking is byte-exact, self-inverse and independent of chunking", "statement": "Masking a payload XORs byte i with key byte (i mod 4) in network order, whatever the address alignment and whatever way the payload is cut into consecutive calls; doing it twice with the same key restores the payload.", "quantifier": "every key, payload, alignment, and way of cutting the payload", "why_tests_cant": "The implementation has a scalar head, word and SIMD loops and a scalar tail; bugs show only for particular alignment/length/cut combinations.", "anchors": ["poseidon/src/http/websocket_frame_header.cpp: mask_payload", "poseidon/src/http/websocket_frame_parser.cpp: parse_frame_payload_from_stream"]}
{"id": "C10", "title": "The WebSocket parser accepts exactly the legal frame sequences", "statement": "Fed with whole frame headers, the parser accepts a sequence of frames exactly when RFC 6455 does: data messages are one TEXT/BINARY frame followed by CONTINUATIONs up to FIN, control frames may be interleaved and are never fragmented or longer than 125 bytes, RSV bits are rejected unless negotiated, unknown opcodes are rejected, and (on a server) unmasked frames are rejected.", "quantifier": "every finite sequence of frame headers", "why_tests_cant": "Legality is a property of unbounded sequences.", "anchors": ["poseidon/src/http/websocket_frame_parser.cpp: parse_frame_header_from_stream"]}
{"id": "C11", "title": "Frame header parsing does not depend on how bytes arrive", "statement": "Delivering a frame header in several pieces has the same outcome as delivering it at once. (The code violates this for fragmented messages with extended lengths: a header that arrives incomplete has already changed the message state.)", "quantifier": "every header and every way of cutting it", "why_tests_cant": "All cut points times all header forms times parser states.", "anchors": ["poseidon/src/http/websocket_frame_parser.cpp: parse_frame_header_from_stream"]}
{"id": "C12", "title": "A received WebSocket frame payload never exceeds the configured limit", "statement": "The parser never holds more payload bytes for one frame than the configured maximum message length; exceeding it raises an error before the bytes are stored, and below the limit the payload delivered equals the bytes sent, unmasked.", "quantifier": "every payload, limit and way of cutting the stream", "why_tests_cant": "Needs all arrival patterns and sizes.", "anchors": ["poseidon/src/http/websocket_frame_parser.cpp: parse_frame_payload_from_stream"]}
{"id": "C13", "title": "Compression parameters negotiated by a WebSocket handshake are always legal", "statement": "Whatever extension text the peer sends, if permessage-deflate becomes active then both window sizes are in 9..15 and the compression level used is in 3..9 (within zlib's valid range); otherwise it stays inactive.", "quantifier": "every Sec-WebSocket-Extensions header value and configuration", "why_tests_cant": "Arbitrary text from a peer.", "anchors": ["poseidon/src/http/websocket_frame_parser.cpp: use_permessage_deflate, accept_handshake_request, accept_handshake_response"]}
{"id": "C14", "title": "WebSocket close is reported at most once and nothing follows it", "statement": "In every session history the close callback runs at most once, and after it has run no message callback runs any more.", "quantifier": "every sequence of incoming chunks, errors and shutdowns", "why_tests_cant": "Histories are unbounded.", "anchors": ["poseidon/src/socket/ws_server_session.cpp: do_call_on_ws_close_once, do_on_http_upgraded_stream", "poseidon/src/socket/ws_client_session.cpp"]}
{"id": "C15", "title": "WebSocket messages are reassembled intact", "statement": "The message handed to the application is the concatenation of the payloads of all its frames, whatever the fragmentation and however the bytes are cut into reads. (The code violates this when one TEXT/BINARY frame's payload arrives in more than one read; it holds when each frame arrives in one read, for any fragmentation.)", "quantifier": "every message, fragmentation and read boundary", "why_tests_cant": "Needs all ways of cutting a stream; local tests deliver whole frames.", "anchors": ["poseidon/src/socket/ws_server_session.cpp: do_on_http_upgraded_stream"]}
{"id": "C16", "title": "Outgoing WebSocket frames are well-formed", "statement": "Every frame sent by ws_send/ws_shut_down has FIN set, a legal opcode, RSV1 only on compressed data frames, is masked exactly when sent by a client, control payloads are at most 125 bytes, and the close status is in 1000..4999; the peer's parser recovers the payload.", "quantifier": "every opcode, payload and status argument", "why_tests_cant": "All payload sizes and arguments.", "anchors": ["poseidon/src/socket/ws_server_session.cpp: ws_send, ws_shut_down, do_ws_send_raw_frame", "poseidon/src/socket/ws_client_session.cpp"]}
{"id": "C17", "title": "Query parameters survive encode then parse", "statement": "Appending any list of name/value pairs (any bytes) to a query string and iterating the result with the query parser yields exactly the same pairs in the same order.", "quantifier": "every list of pairs of arbitrary byte strings", "why_tests_cant": "Arbitrary bytes, including every delimiter and non-ASCII byte.", "anchors": ["poseidon/src/http/http_c_headers.cpp: encode_and_append_query", "poseidon/src/http/http_query_parser.cpp"]}
{"id": "C18", "title": "Paths survive encode then decode", "statement": "Percent-encoding an absolute path without empty or dot segments and decoding it again with the canonicalizing decoder gives the same bytes back.", "quantifier": "every such path of arbitrary bytes", "why_tests_cant": "Arbitrary bytes.", "anchors": ["poseidon/src/http/http_c_headers.cpp: encode_and_set_path", "poseidon/src/utils.cpp: decode_and_canonicalize_uri_path"]}
{"id": "C19", "title": "Canonicalized paths cannot escape the root", "statement": "The canonicalizing decoder always returns an absolute path; if every percent escape of the input is well-formed, the result equals the result of percent-decoding and then processing segments with a stack ('.' and empty dropped, '..' pops, never above the root), so it has no '.', '..' or empty inner segments. (A malformed escape stops decoding before the last canonicalization, so a trailing '/..' can survive.)", "quantifier": "every input byte string", "why_tests_cant": "Path traversal hides in combinations of encoded dots and slashes of any length.", "anchors": ["poseidon/src/utils.cpp: decode_and_canonicalize_uri_path"]}
{"id": "C20", "title": "A network reference is split into exactly its parts", "statement": "When parsing reports n consumed characters, host, port, path, query and fragment are disjoint pieces of the first n characters in order, re-joining them with their delimiters gives those n characters, the port number is the decimal value of the port text and at most 65535, and each piece consists only of its allowed characters.", "quantifier": "every input string", "why_tests_cant": "Arbitrary strings.", "anchors": ["poseidon/src/utils.cpp: parse_network_reference"]}
{"id": "C21", "title": "HTTP header values survive print then parse", "statement": "A string value printed by the HTTP value printer (quoted when needed) and parsed as a quoted string or token gives the same string back, for strings the format can carry.", "quantifier": "every string of bytes", "why_tests_cant": "Arbitrary strings with quotes, backslashes, commas and control characters.", "anchors": ["poseidon/src/http/http_value.cpp: print_to, parse_quoted_string_partial, parse_token_partial"]}
{"id": "C22", "title": "HTTP field names are canonicalized and compared case-insensitively", "statement": "Two field names that differ only in ASCII case become equal, canonicalization is idempotent, keeps the length, and rejects exactly the names with a character outside letters, digits, '-' and '_'.", "quantifier": "every byte string", "why_tests_cant": "SIMD lanes and lookup constants must be right for each byte at each position.", "anchors": ["poseidon/src/http/http_field_name.cpp"]}
{"id": "C23", "title": "A response always tells the peer where its body ends", "statement": "For every status and body, the bytes written by http_response carry no body for statuses 1xx, 204 and 304 and for HEAD, and otherwise carry a Content-Length equal to the number of body bytes that follow.", "quantifier": "every status, header list, body and HEAD flag", "why_tests_cant": "All bodies and statuses; a mismatch desynchronizes keep-alive connections only later.", "anchors": ["poseidon/src/socket/http_server_session.cpp: http_response, do_http_raw_response"]}
{"id": "C24", "title": "Chunked bodies decode to what was sent", "statement": "The bytes written by chunked start, any sequence of chunked sends (empty ones included) and finish are a valid RFC 9112 chunked body whose decoding is the concatenation of the data, and the terminator appears exactly once, at the end.", "quantifier": "every sequence of chunks of any sizes and bytes", "why_tests_cant": "Arbitrary sequences; an empty chunk must not terminate the body.", "anchors": ["poseidon/src/socket/http_server_session.cpp: http_chunked_response_start, http_chunked_response_send, http_chunked_response_finish"]}
{"id": "C25", "title": "TCP output is the accepted data, in order, without loss or duplication", "statement": "In every history of sends, partial writes, would-block results and writability notifications, the bytes given to the kernel followed by the bytes still queued are the concatenation of all data accepted by tcp_send, as long as the connection has not been aborted.", "quantifier": "every interleaving of sends and notifications and every kernel return value", "why_tests_cant": "Partial writes and EAGAIN occur at arbitrary points.", "anchors": ["poseidon/src/socket/tcp_socket.cpp: tcp_send, do_abstract_socket_on_writeable"]}
{"id": "C26", "title": "A graceful TCP shutdown sends everything first", "statement": "After tcp_shut_down, no further data is accepted, and the connection is shut down only once all data accepted before have been given to the kernel (unless an I/O error aborts it).", "quantifier": "every history", "why_tests_cant": "Depends on partial writes at arbitrary points.", "anchors": ["poseidon/src/socket/tcp_socket.cpp: tcp_shut_down, do_abstract_socket_on_writeable"]}
{"id": "C27", "title": "Socket state never goes backwards", "statement": "Under every interleaving of network-thread events and calls from other threads, the state a socket reports only moves forward in pending < established < closing < closed.", "quantifier": "every interleaving of atomic steps of any number of threads", "why_tests_cant": "Races between compare-exchange operations.", "anchors": ["poseidon/src/socket/abstract_socket.cpp: do_socket_test_change, quick_shut_down", "poseidon/src/socket/tcp_socket.cpp", "poseidon/src/static/network_scheduler.cpp: thread_loop"]}
{"id": "C28", "title": "Unconsumed TCP input is kept for the next callback", "statement": "The stream callback sees all bytes received so far minus those it removed. (The code violates this: the receive buffer is cleared before each read, so what a callback leaves unprocessed is lost; it holds for callbacks that consume everything.)", "quantifier": "every sequence of reads and every consuming behaviour of the callback", "why_tests_cant": "Needs particular read boundaries.", "anchors": ["poseidon/src/socket/tcp_socket.cpp: do_abstract_socket_on_readable", "poseidon/socket/tcp_socket.hpp: do_on_tcp_stream", "poseidon/src/socket/ssl_socket.cpp"]}
{"id": "C29", "title": "Every registered socket is found, and its slot search terminates", "statement": "After any sequence of registrations and expirations, an event for a live registered socket reaches that socket, an event for an unregistered address reaches none, and the table always keeps a free slot so a search ends.", "quantifier": "every sequence of insertions with arbitrary addresses and expirations", "why_tests_cant": "Depends on collisions and rehash points.", "anchors": ["poseidon/src/static/network_scheduler.cpp: do_find_socket_nolock, insert_weak"]}
{"id": "C30", "title": "Sockets that fall behind stop being read until they drain", "statement": "After each event the kernel subscription of a socket is write-only exactly when its pending output exceeds the throttle limit at that moment, and read-write otherwise.", "quantifier": "every history of events and queue sizes", "why_tests_cant": "Histories.", "anchors": ["poseidon/src/static/network_scheduler.cpp: thread_loop"]}
{"id": "C31", "title": "A socket's closed callback is last and runs at most once", "statement": "For one registered socket, the closed callback runs at most once and no readable/writeable callback follows it.", "quantifier": "every sequence of kernel events and callback failures", "why_tests_cant": "Histories of events.", "anchors": ["poseidon/src/static/network_scheduler.cpp: thread_loop"]}
{"id": "C32", "title": "Timers never fire early, drift or fire after release", "statement": "A timer fires only at or after its scheduled time; the k-th firing of a periodic timer is scheduled at exactly start+delay+k*period however late earlier firings were; a one-shot timer fires at most once; a released timer never fires; and among due timers the one with the earliest scheduled time fires first.", "quantifier": "every set of timers, insertion history, clock behaviour and release point", "why_tests_cant": "Clock readings and histories are unbounded.", "anchors": ["poseidon/src/static/timer_scheduler.cpp: insert_weak, thread_loop"]}
{"id": "C33", "title": "Every launched task runs exactly once", "statement": "Each task handed to the scheduler and still alive when reached is executed exactly once; released tasks are never executed; tasks of an earlier batch run before later ones. (Within a batch the order is last-in first-out.)", "quantifier": "every interleaving of launches and executions", "why_tests_cant": "Histories.", "anchors": ["poseidon/src/static/task_scheduler.cpp: launch, thread_loop"]}
{"id": "C34", "title": "No fiber misses the completion of the future it waits for", "statement": "Under every interleaving of the fiber scheduler and the thread completing a future, once the future has completed and its waiters have been notified, the waiting fiber is runnable or becomes runnable at the scheduler's next scan, before its timeout; it is never resumed before completion unless timed out.", "quantifier": "every interleaving of the yielding, scheduling and completing steps", "why_tests_cant": "A lost wake-up needs one specific interleaving.", "anchors": ["poseidon/src/static/fiber_scheduler.cpp: do_fiber_yield_function, thread_loop", "poseidon/src/fiber/abstract_future.cpp"]}
{"id": "C35", "title": "Fiber stacks are never shared", "statement": "Under every interleaving of concurrent stack allocations and releases through the lock-free cache, no stack is handed to two fibers at once, released twice, or both cached and in use.", "quantifier": "every interleaving of atomic steps of any number of threads", "why_tests_cant": "ABA-like races.", "anchors": ["poseidon/src/static/fiber_scheduler.cpp: do_allocate_stack, do_free_stack"]}
{"id": "C36", "title": "A future is initialized once and wakes all waiters", "statement": "Its initializer runs at most once, whatever threads call in; every waiter registered before completion is notified, none is left behind; it is reported successful exactly when the initializer finished without an exception.", "quantifier": "every interleaving of initializers and waiters", "why_tests_cant": "Races.", "anchors": ["poseidon/src/fiber/abstract_future.cpp", "poseidon/fiber/abstract_future.hpp"]}
{"id": "C37", "title": "A failed future reports its failure", "statement": "Checking a completed future whose initializer threw re-throws that exception. (The code violates this: the check tests only completion, so a failed future is treated as successful.)", "quantifier": "every future history", "why_tests_cant": "Depends on failure paths of external services.", "anchors": ["poseidon/fiber/abstract_future.hpp: check_success", "poseidon/src/fiber/abstract_future.cpp: do_abstract_future_check_success"]}
{"id": "C38", "title": "A pooled connection has at most one owner and the pool is bounded", "statement": "In every history of allocations and returns, no connection is both pooled and owned or owned twice; the pool never exceeds its configured size; a connection is reused only for the same service; connections whose session state could not be reset are never reused.", "quantifier": "every history of requests, returns and time", "why_tests_cant": "Histories.", "anchors": ["poseidon/src/static/redis_connector.cpp", "poseidon/src/static/mysql_connector.cpp", "poseidon/src/static/mongo_connector.cpp"]}
{"id": "C39", "title": "Events of one session are handled one at a time, in order, close last", "statement": "For each session of an easy server or client, every event is handed to the user callback exactly once, in arrival order, never concurrently with another event of the same session, and close is the last one.", "quantifier": "every interleaving of the network thread and fibers", "why_tests_cant": "Races between producer and consumer.", "anchors": ["poseidon/src/easy/easy_tcp_server.cpp", "poseidon/src/easy/easy_hws_server.cpp", "poseidon/src/easy/easy_timer.cpp"]}
{"id": "C40", "title": "IP address classification follows the registries", "statement": "classify() of an IPv4-mapped, 6to4 or NAT64 address equals the class of the embedded IPv4 address by the documented address ranges, and every other IPv6 address gets the class of its documented prefix.", "quantifier": "all 2^128 addresses", "why_tests_cant": "2^128 addresses; a wrong prefix length is visible only near its boundary.", "anchors": ["poseidon/src/socket/ipv6_address.cpp: classify, do_match_subnet"]}
{"id": "C41", "title": "Address ordering and equality agree", "statement": "compare() is a total order, equal exactly when equals() says so, i.e. when address bytes and port are the same, and orders by address bytes and then by port number.", "quantifier": "every pair and triple of addresses", "why_tests_cant": "2^144 values.", "anchors": ["poseidon/src/socket/ipv6_address.cpp: compare, equals"]}
{"id": "C42", "title": "Redis replies keep their structure at any depth", "statement": "Converting a server reply to a value gives the same tree: nil, integer, string and array nodes at any nesting depth and in the same order. (Status and other simple types nested inside arrays become nil.)", "quantifier": "every reply tree", "why_tests_cant": "Arbitrary depth and width, explicit stack instead of recursion.", "anchors": ["poseidon/src/redis/redis_connection.cpp: fetch_reply", "poseidon/src/redis/redis_value.cpp: print_to"]}
{"id": "C43", "title": "MySQL string literals cannot break out of their quotes", "statement": "Printing a blob value gives a quoted literal which, read back by MySQL's escape rules, denotes exactly the original bytes, and no unescaped quote occurs inside.", "quantifier": "every byte string", "why_tests_cant": "Arbitrary bytes.", "anchors": ["poseidon/src/mysql/mysql_value.cpp: print_to"]}
{"id": "C44", "title": "MySQL date-times keep their instant", "statement": "Binding a date-time as a statement argument and decoding the stored value gives back the same millisecond, for every zone offset that is a multiple of 30 minutes greater than -15 h. (It fails for quarter-hour zones.)", "quantifier": "every instant and zone offset", "why_tests_cant": "Zone-dependent.", "anchors": ["poseidon/src/mysql/mysql_connection.cpp: execute, fetch_row"]}
{"id": "C45", "title": "Table check converges", "statement": "After the ALTER statement computed by a table check has been applied, checking the same structure again requests no alteration, and a matching table is never altered. An alteration is about columns and indexes of the structure that are not as they should be, and nothing else: other columns and indexes are left as they are, and a column is dropped only if the structure says so.", "quantifier": "every table structure and every existing schema", "why_tests_cant": "All schema pairs.", "anchors": ["poseidon/src/fiber/mysql_check_table_future.cpp: do_on_abstract_future_initialize"]}
{"id": "C46", "title": "Mongo documents survive packing and unpacking", "statement": "Packing a document into BSON and unpacking it gives the same document at any nesting depth, with date-times truncated to milliseconds.", "quantifier": "every document", "why_tests_cant": "Arbitrary depth; explicit stack.", "anchors": ["poseidon/src/mongo/mongo_connection.cpp: execute, fetch_reply"]}
{"id": "C47", "title": "Printed values have the recursive structure of the value", "statement": "The printers of Redis and Mongo values, which use an explicit stack, print exactly what the recursive definition of the format prescribes, for values of any depth.", "quantifier": "every value tree", "why_tests_cant": "Arbitrary depth.", "anchors": ["poseidon/src/redis/redis_value.cpp: print_to", "poseidon/src/mongo/mongo_value.cpp: print_to"]}
{"id": "C48", "title": "Configuration paths resolve to the denoted value", "statement": "Querying a path that spells a list of field names and array subscripts, with any amount of spaces and tabs around the parts, returns the value reached by following them, null when some part is missing, and an error when a part is applied to a value of the wrong kind.", "quantifier": "every configuration tree, path and spacing", "why_tests_cant": "Arbitrary trees and paths.", "anchors": ["poseidon/src/base/config_file.cpp: query"]}
{"id": "C49", "title": "Configuration getters return in-range values of the right type", "statement": "Each typed getter returns a value only if the stored value has that type and lies in the requested range; otherwise it throws, or returns nothing for null in the optional form.", "quantifier": "every configuration tree, path and range", "why_tests_cant": "All values and ranges.", "anchors": ["poseidon/src/base/config_file.cpp: get_*"]}
{"id": "C50", "title": "A log entry is one line and contains no raw control characters", "statement": "Whatever text is logged, the entry written has exactly one line feed, at its end, and control characters of the message appear only in escaped form (tabs and the new-line replacement excepted).", "quantifier": "every message text", "why_tests_cant": "Arbitrary bytes; log injection.", "anchors": ["poseidon/src/static/logger.cpp: do_write_nothrow"]}
{"id": "C51", "title": "Log messages are written in order and only expendable ones are dropped", "statement": "In every interleaving of enqueue, the logger thread and synchronize, messages are written at most once, in enqueue order, and a message of a non-expendable level is never dropped.", "quantifier": "every interleaving", "why_tests_cant": "Races.", "anchors": ["poseidon/src/static/logger.cpp: enqueue, thread_loop, synchronize"]}
{"id": "C52", "title": "Angle reduction stays congruent and in range", "statement": "reduce360 returns the number congruent modulo 360 in [0,359] and reduce180 the one in [-179,180], for every angle except the few hundred lowest 32-bit integers, where the result is wrong.", "quantifier": "every 32-bit angle", "why_tests_cant": "2^32 inputs with a corner of wrong ones.", "anchors": ["poseidon/geometry.hpp: degrees::reduce360, reduce180"]}
{"id": "C53", "title": "Splitting and joining text are inverse", "statement": "Joining non-empty blank-trimmed segments that do not contain the delimiter and splitting the result gives the segments back; splitting with a limit never gives more segments than the limit and leaves the rest in the last one. (A leading delimiter or a blank-only middle segment is mishandled.)", "quantifier": "every list of segments, delimiter and limit", "why_tests_cant": "Arbitrary strings.", "anchors": ["poseidon/src/utils.cpp: explode, implode"]}
{"id": "C54", "title": "Hexadecimal encoding is exact", "statement": "The 16-byte hexadecimal encoder writes 32 lowercase digits from which the 16 bytes can be recovered.", "quantifier": "all 2^128 inputs", "why_tests_cant": "SIMD lanes must be right for each byte.", "anchors": ["poseidon/src/utils.cpp: hex_encode_16_partial"]}
{"id": "C55", "title": "Splicing buffers never loses or reorders bytes", "statement": "After splicing one buffer onto another, the target holds its old bytes followed by the source's, and the source is empty (unless both are the same buffer, when nothing changes).", "quantifier": "every pair of buffer contents", "why_tests_cant": "All contents.", "anchors": ["poseidon/utils.hpp: splice_buffers"]}
{"id": "C56", "title": "Reading a file returns the requested slice", "statement": "A completed read returns exactly the bytes of the file from the requested offset, at most the requested limit, whatever short reads occur, and fails when the offset lies past the end.", "quantifier": "every file content, offset, limit and sequence of short reads", "why_tests_cant": "Short reads at arbitrary points.", "anchors": ["poseidon/src/fiber/read_file_future.cpp"]}
{"id": "C57", "title": "DNS results are distinct and keep resolver order", "statement": "The list of addresses has no duplicates, contains exactly the resolver's addresses, in order of first occurrence.", "quantifier": "every resolver answer", "why_tests_cant": "Arbitrary lists.", "anchors": ["poseidon/src/fiber/dns_query_future.cpp"]}
{"id": "C58", "title": "Scan-and-get returns each matching key once with its string value", "statement": "The resulting map contains exactly the keys reported by the scan whose value is a string at the time of the bulk get, each with its value, whatever page sizes and duplicates the server produces.", "quantifier": "every sequence of scan pages and bulk replies", "why_tests_cant": "Server-dependent pages and duplicates.", "anchors": ["poseidon/src/fiber/redis_scan_and_get_future.cpp"]}
{"id": "C59", "title": "Header lists are read back as written", "statement": "Iterating a well-formed HTTP header list with the header parser reports every element with all its attributes, names and (unquoted) values, in order, whatever blanks surround the parts, and stops at the end of the text without error.", "quantifier": "every list of elements of attributes with token names and bare or quoted values that do not begin a date", "why_tests_cant": "Arbitrarily many elements, attributes and quoted characters.", "anchors": ["poseidon/src/http/http_header_parser.cpp", "poseidon/src/http/http_value.cpp"]}
{"id": "C60", "title": "Header iteration terminates on any text and stays stopped after an error", "statement": "Each successful step of the header parser consumes text, so loops over elements and attributes end on every input; after a parse error all further steps fail.", "quantifier": "every byte string and every order of calls", "why_tests_cant": "Malformed input of any shape.", "anchors": ["poseidon/src/http/http_header_parser.cpp: next_element, next_attribute"]}
{"id": "C61", "title": "A client and a server agree on WebSocket compression", "statement": "After a server accepted any handshake request and the client accepted its response, both use compression or neither does, and each direction uses the same window size at both ends.", "quantifier": "every request, every configuration of both ends", "why_tests_cant": "All combinations of parameters and configurations.", "anchors": ["poseidon/src/http/websocket_frame_parser.cpp: create_handshake_request, accept_handshake_request, accept_handshake_response"]}
{"id": "C62", "title": "Addresses survive printing and parsing", "statement": "The text of any address with any port fits 48 characters, and parsing it, alone or followed by text that cannot continue it, gives back the same address and port and consumes exactly that text; constructing an address from a text throws unless all of it was parsed. (The code violates the latter for the empty text.)", "quantifier": "every 128-bit address, every port, every following text", "why_tests_cant": "2^144 addresses with ports.", "anchors": ["poseidon/src/socket/ipv6_address.cpp: parse, print_partial, IPv6_Address(chars_view)"]}
{"id": "C63", "title": "The establishment callback runs at most once", "statement": "For one stream socket, the callback that reports an established connection runs at most once, whatever events the kernel reports and whatever other threads call, and afterwards the socket never reports the pending state.", "quantifier": "every interleaving, every sequence of kernel events", "why_tests_cant": "An event may be reported many times and another thread may close the socket between the test and the change of the state.", "anchors": ["poseidon/src/socket/tcp_socket.cpp: do_abstract_socket_on_writeable", "poseidon/src/socket/ssl_socket.cpp: do_abstract_socket_on_writeable"]}
{"id": "C64", "title": "A fiber begins once and is dropped only when done", "statement": "Every launched fiber begins at most once, is suspended and resumed in alternation, never runs at the same time as another fiber, and stays with the scheduler until it has finished, or was abandoned before it began.", "quantifier": "every interleaving of launches, abandonments, scheduling steps and completing threads", "why_tests_cant": "Arbitrarily many fibers and histories.", "anchors": ["poseidon/src/static/fiber_scheduler.cpp: launch, thread_loop, do_fiber_function"]}
{"id": "C65", "title": "A runnable fiber is not starved", "statement": "A fiber that is due is taken after a number of other choices that is bounded when it becomes due, whatever other fibers and threads do later. (The code violates this if the warning timeout is configured as zero: a waiting fiber then stays first in the queue and is polled forever.)", "quantifier": "every reachable state, every later history, every configuration", "why_tests_cant": "Unbounded histories.", "anchors": ["poseidon/src/static/fiber_scheduler.cpp: thread_loop, reload"]}
{"id": "C66", "title": "Waiting for a future does not block other fibers", "statement": "When a fiber waits for a future that is being initialized by another thread, the fiber thread can go on with other fibers. (The code violates this: the initializer runs with the mutex of the future locked, and the wait locks that mutex on the fiber thread.)", "quantifier": "every interleaving", "why_tests_cant": "Needs the wait to begin while the initializer runs.", "anchors": ["poseidon/src/fiber/abstract_future.cpp: do_abstract_future_initialize_once", "poseidon/src/static/fiber_scheduler.cpp: do_yield"]}
{"id": "C67", "title": "Compressed WebSocket messages are received as they were sent", "statement": "Messages sent through a WebSocket session, each compressed if it is long enough and sent as is if it can't be compressed, are decompressed by the receiver to exactly what was sent, in any number and any order, with or without context takeover; no compression loop goes on forever. A compressed message that expands to more than the limit is not received.", "quantifier": "every sequence of messages, every zlib stream that does what zlib.h says, every growth of buffers", "why_tests_cant": "The history of a stream decides how the next message is compressed.", "anchors": ["poseidon/src/base/abstract_deflator.cpp", "poseidon/src/base/abstract_inflator.cpp", "poseidon/src/http/websocket_deflator.cpp: deflate_message_stream, deflate_message_finish, inflate_message_stream, inflate_message_finish", "poseidon/src/socket/ws_server_session.cpp: ws_send"]}
{"id": "C68", "title": "Compressors and decompressors deliver all output once, in order", "statement": "Each call of a compressor or decompressor ends, consumes all its input (a decompressor: unless the stream has ended) unless it throws an exception, and hands to the derived class exactly the bytes that zlib wrote; after a flush or a successful finish everything consumed can be restored; compressing and decompressing in any pieces gives back the data.", "quantifier": "every division of the data, every sizes of the buffers given by the derived class", "why_tests_cant": "All divisions and sizes.", "anchors": ["poseidon/src/base/abstract_deflator.cpp: deflate, sync_flush, full_flush, finish", "poseidon/src/base/abstract_inflator.cpp: inflate, finish"]}
{"id": "C69", "title": "UDP packets are received and sent whole, once and in order", "statement": "Every packet the kernel has for a UDP socket is passed to the packet callback once, complete, in order and with its source address, whatever earlier callbacks did to the buffer, whether they threw exceptions, and whatever errors occurred in between; sending passes exactly the given data to the kernel for the given address, and returns true if and only if the kernel took it.", "quantifier": "every sequence of results from the kernel, every behaviour of callbacks", "why_tests_cant": "All sequences of packets, errors and exceptions.", "anchors": ["poseidon/src/socket/udp_socket.cpp: do_abstract_socket_on_readable, udp_send"]}
{"id": "C70", "title": "An acceptor hands over each connection once, and lets other sockets go on", "statement": "Handling an event of a listening socket ends after every waiting connection was passed once, in order, with its source address, to the accept callback; connections that were not kept are closed. (The code violates the former when descriptors run out: the error is ignored and accepting is tried again forever, on the only network thread.)", "quantifier": "every backlog, every number of free descriptors, every behaviour of callbacks", "why_tests_cant": "All combinations, including those at the limit of the process.", "anchors": ["poseidon/src/socket/tcp_acceptor.cpp: do_abstract_socket_on_readable"]}
{"id": "C71", "title": "Easy UDP sockets and timers deliver in order, one at a time", "statement": "For one start of an easy UDP server, client or timer, packets or ticks reach the callback once and in order; the callback is never called while a call of it is running; whatever arrived is delivered once all fibers have returned, unless the object was stopped or restarted; after that no callback is called. (The code violates the last part if a packet is being received while the callback stops the object.)", "quantifier": "every interleaving of packets, fibers, starts and stops, and every failure of memory allocation", "why_tests_cant": "Interleavings of three threads.", "anchors": ["poseidon/src/easy/easy_udp_server.cpp", "poseidon/src/easy/easy_udp_client.cpp", "poseidon/src/easy/easy_timer.cpp"]}
{"id": "C72", "title": "A request is put together from its pieces", "statement": "Whatever pieces the HTTP library hands over, the request has the whole target, and exactly the received headers in their order with their whole names and values, and the payload is the concatenation of its pieces; a head or payload above its limit is rejected, however it is cut.", "quantifier": "every division of the head and the payload into pieces, every limit", "why_tests_cant": "All divisions.", "anchors": ["poseidon/src/http/http_request_parser.cpp: on_url, on_header_field, on_header_value, on_body"]}
{"id": "C73", "title": "The target of a request is understood as it was meant", "statement": "A request whose target is a path is accepted if and only if it has exactly one Host header, and path, query and host are as written; a request whose target is an absolute URI is accepted and its parts are as written. (The code violates this: a path whose query has a URL in it is rejected, and the host of a URI with '@' in its query and no path is taken from the query.)", "quantifier": "every target, every list of headers", "why_tests_cant": "Unbounded strings; the wrong ones are rare.", "anchors": ["poseidon/src/http/http_request_parser.cpp: on_headers_complete", "poseidon/src/utils.cpp: parse_network_reference"]}
{"id": "C74", "title": "A request arrives as it was sent", "statement": "A request that is sent by a client is one head and then exactly the bytes of its payload; it has one Host header and the given other headers in their order, the length of the payload if there is one, and a server reads the same path, query and host, and for requests to proxies the same userinfo and port, from it. (The code violates this for IPv6 addresses: the brackets are lost.)", "quantifier": "every request, every payload, every default host", "why_tests_cant": "Unbounded strings.", "anchors": ["poseidon/src/socket/http_client_session.cpp: do_set_request_host, http_request", "poseidon/src/http/http_request_headers.cpp: encode"]}
{"id": "C75", "title": "The calls of an HTTP server session are in order", "statement": "Whatever a client sends, in whatever pieces, and whatever the derived class does, a session returns from every read with nothing left in the buffer, and calls the derived class for each request first with its headers, then with payload, then with its end; after an error or a switch to another protocol there are no more calls for requests. (The code violates this: a request without a host is reported as an error and delivered later nevertheless; a request to a proxy is reported as an error by the default class, and delivered too; and a request whose payload is too long may be delivered without a part of it.)", "quantifier": "every stream of bytes, every division of it, every derived class, every time at which another thread sends a response with status 101", "why_tests_cant": "All streams and divisions.", "anchors": ["poseidon/src/socket/http_server_session.cpp: do_on_tcp_stream, do_on_http_request_headers"]}
{"id": "C76", "title": "The requests of a session do not depend on how the stream is cut", "statement": "A session that receives the same bytes in other pieces makes the same calls for requests up to the first error; without an error it also passes on the same bytes to another protocol and ends in the same way. (The code violates this for requests with payloads which are answered with status 101 before their payloads have come, and after errors; and the line break that ends the head of a CONNECT request gets into the tunnel.)", "quantifier": "every stream of bytes, every two divisions of it", "why_tests_cant": "All divisions; TCP may cut anywhere.", "anchors": ["poseidon/src/socket/http_server_session.cpp: do_on_tcp_stream", "poseidon/src/http/http_request_parser.cpp: parse_headers_from_stream, parse_payload_from_stream"]}
{"id": "C77", "title": "Pipelined requests are delivered once and in order", "statement": "Requests within the limits that a client sends one after another over one connection, in whatever pieces, are all delivered to the derived class, each once, in order, with their own headers and payloads, however much of a payload the class consumes early; after one that is answered with status 101 all bytes go to the other protocol.", "quantifier": "every number of requests, every division of the stream, every way of consuming payloads", "why_tests_cant": "All sequences and divisions.", "anchors": ["poseidon/src/socket/http_server_session.cpp: do_on_tcp_stream", "poseidon/src/http/http_request_parser.cpp: next_message"]}
{"id": "C78", "title": "Angles are reduced and looked up correctly", "statement": "reduce360 and reduce180 give the same angle in [0,359] and [-179,180]; sin, cos and tan of every integral angle are the mathematical values to the precision of the type. (The code violates this for the 488 least integers, for which an addition wraps.)", "quantifier": "every int", "why_tests_cant": "All 2^32 angles; real analysis.", "anchors": ["poseidon/geometry.hpp: degrees::reduce360, reduce180, sin, cos, tan", "poseidon/src/geometry.cpp: s_trig_table, do_trig_degrees"]}
{"id": "C79", "title": "The direction of a vector is its angle", "statement": "direction() of every non-zero vector gives an angle in [0,359] that is the nearest integral one to the exact angle, and it always gives a result. (The code violates this: it is only within 0.51 degrees, it may be 360, and two infinite elements fail an assertion.)", "quantifier": "every vector, infinities and not-a-numbers included; every way of rounding", "why_tests_cant": "All pairs of floating-point numbers; real analysis.", "anchors": ["poseidon/geometry.hpp: vector2::direction", "poseidon/src/geometry.cpp: do_reduced_arctan, do_arctan_degrees"]}
{"id": "C80", "title": "Rotations and directions fit together", "statement": "A vector that is made from a length and an angle has that direction; a rotated vector is the mathematical one up to rounding, and its angle from the original one is the angle of the rotation.", "quantifier": "every angle, every length and vector whose products neither overflow nor vanish, every way of rounding", "why_tests_cant": "All vectors and angles; real analysis.", "anchors": ["poseidon/geometry.hpp: vector2(float, degrees), rotate, angle_from, dot, cross"]}
{"id": "C81", "title": "Mongo values are printed as JSON", "statement": "to_string() of a value made of nulls, booleans, integers, strings, arrays and documents, at any depth, is a JSON text that reads back as the same value; binary data are printed as their base64 text and object identifiers as their hexadecimal digits. (The code violates this for every string with a character that is not printable ASCII and has no short escape: the digits after \\u are preceded by 0x, so the output is not JSON.)", "quantifier": "every value, of any depth and with any strings", "why_tests_cant": "All strings and nestings.", "anchors": ["poseidon/src/utils.cpp: quote_json_string", "poseidon/src/mongo/mongo_value.cpp: print_to, to_string"]}
{"id": "C82", "title": "A response is put together from its pieces", "statement": "Wherever the library cuts the reason, the header names, the header values and the payload of a response into pieces, the response has the same status, reason, headers in their order, and payload, and it is rejected if it is larger than the limits. (The code violates the last part: the reason of a response without headers may have any length.)", "quantifier": "every response, every division into pieces, every limit", "why_tests_cant": "All divisions; unbounded sizes.", "anchors": ["poseidon/src/http/http_response_parser.cpp: s_settings (on_status, on_header_field, on_header_value, on_body)", "poseidon/src/http/http_s_headers.cpp: estimate_size"]}
{"id": "C83", "title": "The calls of an HTTP client session are in order", "statement": "Whatever a server sends, in whatever pieces, and whatever the derived class does, a session returns from every read with nothing left in the buffer, and calls the derived class for each response first with its headers, then with payload, then with its end; after an error there are no more calls, and after a switch to another protocol there are only calls for that. (The code violates this: a response whose payload is too long may be delivered without a part of it. With a library that does not leave the payload when a response ends with the stream, as the published versions of http-parser do, the session does not return at the end of the stream.)", "quantifier": "every stream of bytes, every division of it, every derived class", "why_tests_cant": "All streams and divisions.", "anchors": ["poseidon/src/socket/http_client_session.cpp: do_on_tcp_stream"]}
{"id": "C84", "title": "The responses of a session do not depend on how the stream is cut", "statement": "A session that receives the same bytes in other pieces makes the same calls for responses and errors, passes on the same bytes to another protocol, and ends in the same way. (The line break that ends the head of the response to a CONNECT request gets into the tunnel.)", "quantifier": "every stream of bytes, every two divisions of it", "why_tests_cant": "All divisions; TCP may cut anywhere.", "anchors": ["poseidon/src/socket/http_client_session.cpp: do_on_tcp_stream", "poseidon/src/http/http_response_parser.cpp: parse_headers_from_stream, parse_payload_from_stream"]}
{"id": "C85", "title": "Responses are delivered once and in order", "statement": "Responses within the limits that arrive one after another, in whatever pieces, are all delivered to the derived class, each once, in order, with their own headers and payloads, however much of a payload the class consumes early; the last one may end with the stream, and after one with status 101 all bytes go to the other protocol.", "quantifier": "every number of responses, every division of the stream, every way of consuming payloads", "why_tests_cant": "All sequences and divisions.", "anchors": ["poseidon/src/socket/http_client_session.cpp: do_on_tcp_stream, do_on_http_response_payload_stream", "poseidon/http/http_response_parser.hpp: next_message, set_no_payload"]}
{"id": "C86", "title": "A service URI means what its parts say", "statement": "The URI of a Redis, MySQL or MongoDB service is accepted exactly if it has the form user@host:port/database, where parts may be missing, and the connection then uses these parts, and the defaults for those that are missing.", "quantifier": "every string", "why_tests_cant": "Unbounded strings.", "anchors": ["poseidon/src/redis/redis_connection.cpp: execute", "poseidon/src/mysql/mysql_connection.cpp: execute", "poseidon/src/utils.cpp: parse_network_reference"]}
{"id": "C87", "title": "A Redis connection logs in once, and then sends the commands in order", "statement": "Whatever the server does and whatever the owner does with the connection, the server of the service URI sees some failed logins, one for each call that says so, then one login with the user, the password and the database, and then exactly the commands that have been executed, in order; fetch_reply gives the reply to the last of them, once; and reset() says that the connection is lost exactly if a command has got no reply.", "quantifier": "every history of execute, fetch_reply and reset, every behavior of the server, every user and password without null characters", "why_tests_cant": "All histories and behaviors of the server.", "anchors": ["poseidon/src/redis/redis_connection.cpp: execute, fetch_reply, reset"]}
{"id": "C88", "title": "MySQL statements get their arguments, and rows their values", "statement": "A statement is executed with exactly the arguments that have been given, in order, whatever their types and number are, or not at all if there are too few of them; the connection logs in once, with the parts of the service URI; no invalid pointer is followed; and a row is fetched with the values of its columns, however long they are. (The code violates the last part: integers that do not fit into signed 64-bit ones become negative.)", "quantifier": "every statement, every list of arguments, every history, every behavior of the server, every row", "why_tests_cant": "Unbounded lists and sizes; pointers into buffers that are reallocated.", "anchors": ["poseidon/src/mysql/mysql_connection.cpp: execute, fetch_fields, fetch_row"]}
{"id": "C89", "title": "A query gives the whole result, or an exception", "statement": "A MySQL query gives all rows in order with the names of the columns; a MongoDB query gives all documents of the cursor in order, or the reply if there is no cursor; a Redis query gives the status or the value of the reply. If the server reports an error at any time, the query throws an exception, and a part of the result is never given as if it were all.", "quantifier": "every result, every number of rows and documents, every time of an error, every history of the connection", "why_tests_cant": "Unbounded results; all times of errors.", "anchors": ["poseidon/src/fiber/mysql_query_future.cpp: do_on_abstract_future_initialize", "poseidon/src/fiber/mongo_query_future.cpp: do_on_abstract_future_initialize", "poseidon/src/fiber/redis_query_future.cpp: do_on_abstract_future_initialize", "poseidon/src/mongo/mongo_connection.cpp: execute_bson, fetch_reply_bson_opt"]}
{"id": "C90", "title": "A WebSocket server accepts those who ask, and then delivers their messages", "statement": "A client that sends a correct handshake and then frames is answered with status 101; the application is told once that the connection has been accepted, with the address in the request, and then gets every message once, in order and whole, and the CLOSE frame. Whatever else is sent, the connection is accepted at most once, only if a request has asked for it, and not after a close; there are no messages before that or after a close; and there is at most one close. (The code violates this: a handshake behind a rejected request is accepted after the close has been reported; and a frame whose header is divided between two reads is misread.)", "quantifier": "every stream of bytes, every division of it, every behavior of the callbacks", "why_tests_cant": "All streams and divisions; several layers of parsers and sessions.", "anchors": ["poseidon/src/socket/ws_server_session.cpp: do_on_http_request_headers, do_ws_complete_handshake, do_on_http_request_error, do_on_http_upgraded_stream", "poseidon/src/socket/http_server_session.cpp: do_on_tcp_stream", "poseidon/src/http/websocket_frame_parser.cpp: accept_handshake_request"]}
{"id": "C91", "title": "The end of a WebSocket connection is reported exactly once", "statement": "For every connection, when its socket has been closed, the application has been told so exactly once, and gets neither data nor messages after that. This holds even if callbacks throw exceptions, or a limit is exceeded. An exception of a callback leaves the session at once: nothing is called or sent behind it.", "quantifier": "every stream of bytes, every division of it, every behavior of the callbacks", "why_tests_cant": "All streams, divisions and times of errors.", "anchors": ["poseidon/src/socket/ws_server_session.cpp: do_call_on_ws_close_once, do_abstract_socket_on_closed, do_on_http_request_error, do_on_ws_message_data_stream", "poseidon/src/static/network_scheduler.cpp: do_epoll_network"]}
{"id": "C92", "title": "A WebSocket client reports the connection that the server has agreed to, and then delivers its messages", "statement": "When a server answers the request of a client with status 101, the right key and no unknown extension, the application is told once that the connection has been established, and then gets every message once, in order and whole, and the CLOSE frame. Whatever else the server sends, a connection is reported at most once, only if there is a response with the right key, and not after a close; there are no messages before that or after a close; and there is at most one close. Servers of this project ask and agree in this way. (The code violates this: a response before the one that switches is taken for a rejection, and the connection is reported after the close; a response with another status but these headers is reported as a connection; and a frame whose header is divided between two reads is misread.)", "quantifier": "every stream of bytes, every division of it, every behavior of the callbacks, every key", "why_tests_cant": "All streams and divisions; several layers of parsers and sessions.", "anchors": ["poseidon/src/socket/ws_client_session.cpp: do_on_http_response_finish, do_on_http_upgraded_stream", "poseidon/src/socket/http_client_session.cpp: do_on_tcp_stream", "poseidon/src/http/websocket_frame_parser.cpp: create_handshake_request, accept_handshake_response"]}
{"id": "C93", "title": "The end of a WebSocket client connection is reported exactly once", "statement": "For every connection of a client, when its socket has been closed, the application has been told so exactly once, and gets neither data nor messages after that. This holds even if callbacks throw exceptions, or a limit is exceeded. An exception of a callback leaves the session at once: nothing is called or sent behind it.", "quantifier": "every stream of bytes, every division of it, every behavior of the callbacks", "why_tests_cant": "All streams, divisions and times of errors.", "anchors": ["poseidon/src/socket/ws_client_session.cpp: do_call_on_ws_close_once, do_abstract_socket_on_closed, do_on_ws_message_data_stream", "poseidon/src/static/network_scheduler.cpp: do_epoll_network"]}
{"id": "C94", "title": "The callback of an easy server or client sees what happens to the sockets, in order and without a hole", "statement": "For each session of an easy server or client, the calls of the callback correspond to what happens to its socket, in the same order, each once and without a hole, until the closure; for streams, the data of the calls are the bytes that have been read from the socket. When nothing is left to do, the callback has been called for all of it, unless memory has run out or the server has been stopped. (The code violates this if a session is created at the address of one that has been destroyed, see C39.)", "quantifier": "every number of sessions, every schedule of the network thread and the fibers, every sequence of things that happen to sockets, every class of sessions", "why_tests_cant": "All interleavings of two threads and all histories of sockets.", "anchors": ["poseidon/src/easy/easy_tcp_server.cpp: Final_Socket, Final_Fiber", "poseidon/src/easy/easy_tcp_client.cpp: Final_Socket, Final_Fiber", "poseidon/src/static/network_scheduler.cpp: thread_loop"]}
{"id": "C95", "title": "An easy HTTP server gets every request, once and in order", "statement": "When a client sends requests one after another over a connection, whatever pieces they arrive in, the callback of an easy HTTP server is called for the opening of the session, then for every request, once, in order, with its headers and its whole payload, and then for the closure, whatever the network thread and the fibers do in the meantime.", "quantifier": "every sequence of requests, every division of the stream, every schedule of the network thread and the fibers, every number of other sessions", "why_tests_cant": "Unbounded streams, all divisions, all interleavings.", "anchors": ["poseidon/src/easy/easy_http_server.cpp: Final_Session, Final_Fiber", "poseidon/src/socket/http_server_session.cpp: do_on_tcp_stream"]}
{"id": "C96", "title": "An easy HTTP client gets every response, once and in order", "statement": "When a server sends responses one after another over a connection, whatever pieces they arrive in, the callback of an easy HTTP client is called for the opening of the session, then for every response, once, in order, with its headers and its whole payload, and then for the closure, whatever the network thread and the fibers do in the meantime. (The code violates this for responses to HEAD requests.)", "quantifier": "every sequence of responses, every division of the stream, every schedule of the network thread and the fibers, every number of other sessions", "why_tests_cant": "Unbounded streams, all divisions, all interleavings.", "anchors": ["poseidon/src/easy/easy_http_client.cpp: Final_Session, Final_Fiber", "poseidon/src/socket/http_client_session.cpp: do_on_tcp_stream, do_on_http_response_headers"]}
{"id": "C97", "title": "The PID file belongs to one process at a time, and has its process ID", "statement": "However many processes are started with the same configuration, at any time, and whichever of them are killed, at most one is running; while it is running the PID file has its process ID; and a file that has been left behind does not keep a process from starting. (The code violates this: a process that is started while another is running makes the PID file empty before it finds out and ends; and as the lock is given up for a moment when it is changed to another kind, two processes may be running.)", "quantifier": "every number of processes, every interleaving of their system calls, every time of death", "why_tests_cant": "All interleavings and crash points of several processes.", "anchors": ["poseidon/src/main.cpp: do_write_pid_file, do_exit_printf"]}
{"id": "C98", "title": "Startup is all or nothing, in the documented order, and its outcome is reported by the exit status", "statement": "For every command line and every state of the system, the program does what the usage message says, in this order: it enters the directory, reads main.conf there, sets up its parts, and loads modules one after another, those on the command line instead of those in main.conf; each thing happens once, and nothing happens after a failure. With -d, the command returns 0 only after all of this has been done, and otherwise the status of the process that has failed, or 128 plus the signal that has terminated it.", "quantifier": "every command line, every environment, every module, every failure", "why_tests_cant": "All command lines and all points of failure, in three processes.", "anchors": ["poseidon/src/main.cpp: do_parse_command_line, do_set_working_directory, do_waitpid_and_exit, do_daemonize_start, do_daemonize_finish, do_load_modules, main"]}
{"id": "C99", "title": "Settings come from one configuration file as a whole, or are the documented defaults", "statement": "For every configuration file, reloading a part of the program either fails and changes nothing, which happens exactly if an entry has a wrong type or a value out of range, or gives every setting the value of its entry if there is one and its default otherwise. The list of modules and the levels and colors of the log are read likewise. (The code violates this for the log: after a file has been rejected, messages of all levels are considered enabled.)", "quantifier": "every configuration file, every combination of entries, types and values", "why_tests_cant": "The space of configurations is unbounded, and so is the space of wrong ones.", "anchors": ["poseidon/src/static/redis_connector.cpp: reload", "poseidon/src/static/mongo_connector.cpp: reload", "poseidon/src/static/mysql_connector.cpp: reload", "poseidon/src/static/network_scheduler.cpp: reload", "poseidon/src/static/fiber_scheduler.cpp: reload", "poseidon/src/static/logger.cpp: reload, do_load_level_config", "poseidon/src/main.cpp: do_load_modules"]}
{"id": "C100", "title": "A client tries the addresses of its host in order until one accepts, and a failure is reported", "statement": "For every host, the addresses that the resolver gives are tried one after another, in its order and with the requested port, IPv4 addresses as mapped ones, until one accepts the connection; none is tried after that. If one is accepted the socket is watched and its establishment and closure are reported; otherwise its closure is reported. Nothing is done with a socket that has been destroyed in the meantime. (The code violates this: if the host cannot be resolved or no address accepts the connection at once, the socket is shut down, but its closure is never reported.)", "quantifier": "every answer of the resolver, every sequence of results of connecting", "why_tests_cant": "Unbounded lists of addresses, and failures that depend on the network.", "anchors": ["poseidon/src/socket/dns_connect_task.cpp: do_on_abstract_task_execute"]}
{"id": "C101", "title": "The user of an easy WebSocket server sees an opening, messages and an end, in this order", "statement": "Whatever arrives at a session of an easy WebSocket server, its callback is called for the opening at most once and only for a request that has asked for it, with the address of that request; for messages only after that; for the end of the session at most once, and exactly once when everything is over and the socket has been closed; and for nothing after that. When a client makes a correct handshake and sends correct frames, every text, binary and PONG message reaches the callback, once, in order and with its payload, and the end has the status and the reason of the CLOSE frame, or 1006 if there was none. (The code violates this for headers of frames that are split between reads, see C90, and for sessions at reused addresses, see C39.)", "quantifier": "every stream of bytes, every division of it, every schedule of the network thread and the fibers, every number of other sessions", "why_tests_cant": "Unbounded streams, all divisions, all interleavings.", "anchors": ["poseidon/src/easy/easy_ws_server.cpp: Final_Session, Final_Fiber", "poseidon/src/easy/easy_wss_server.cpp: Final_Session, Final_Fiber", "poseidon/src/socket/ws_server_session.cpp: do_on_http_request_headers, do_on_http_upgraded_stream, do_call_on_ws_close_once"]}
{"id": "C102", "title": "The user of an easy WebSocket client sees an opening, messages and an end, in this order", "statement": "Whatever arrives at a session of an easy WebSocket client, its callback is called for the opening at most once and only if the answer to the key of the request has come, with the address that has been connected to; for messages only after that; for the end of the session at most once, and exactly once when everything is over and the socket has been closed; and for nothing after that. When a server accepts the handshake and sends correct frames, every text, binary and PONG message reaches the callback, once, in order and with its payload, and the end has the status and the reason of the CLOSE frame, or 1006 if there was none. (The code violates this for headers of frames that are split between reads, see C92, and for sessions at reused addresses, see C39.)", "quantifier": "every stream of bytes, every division of it, every schedule of the network thread and the fibers, every number of other sessions", "why_tests_cant": "Unbounded streams, all divisions, all interleavings.", "anchors": ["poseidon/src/easy/easy_ws_client.cpp: Final_Session, Final_Fiber", "poseidon/src/easy/easy_wss_client.cpp: Final_Session, Final_Fiber", "poseidon/src/socket/ws_client_session.cpp: do_on_http_response_finish, do_on_http_upgraded_stream, do_call_on_ws_close_once"]}
{"id": "C103", "title": "The user of an easy server for both HTTP and WebSocket sees plain requests, then an opening, messages and an end, in this order", "statement": "Whatever arrives at a session of an easy server that takes both plain requests and WebSocket connections, its callback is called for plain requests only before the opening; for the opening at most once and only for a request that has asked for it, with the address of that request; for messages only after that; for the end of the session at most once, and exactly once when everything is over and the socket has been closed; and for nothing after that. Correct plain requests reach the callback, once, in order, with their method and address; when a correct handshake and correct frames follow, then so do the messages and the end. Responses are sent in the order of requests. (The code violates the last: a handshake is answered by the network thread before the callback has been called for plain requests in front of it.)", "quantifier": "every stream of bytes, every division of it, every schedule of the network thread and the fibers, every number of other sessions", "why_tests_cant": "Unbounded streams, all divisions, all interleavings.", "anchors": ["poseidon/src/easy/easy_hws_server.cpp: Final_Session, Final_Fiber", "poseidon/src/easy/easy_hwss_server.cpp: Final_Session, Final_Fiber", "poseidon/src/socket/ws_server_session.cpp: do_ws_complete_handshake, do_on_http_upgraded_stream, do_call_on_ws_close_once"]}
{"id": "C104", "title": "Threads do not block one another", "statement": "Whatever the threads of the library and any number of threads of the user do - sending, compressing, connecting, launching fibers, tasks and timers, waiting for futures, using connections, logging, reloading - and in whichever order, no threads wait for one another in a circle for mutexes of the library; every call returns in the end. (The code violates this twice: when a callback of a WebSocket session sends a compressed message in the network thread while another thread sends one on the same session, and when a task that is executing launches a task while it is about to be executed by another thread.)", "quantifier": "every number of threads, everything they do, every interleaving", "why_tests_cant": "All interleavings of any number of threads.", "anchors": ["poseidon/src/static/network_scheduler.cpp: thread_loop, insert_weak", "poseidon/src/static/fiber_scheduler.cpp: thread_loop, launch, do_fiber_yield_function", "poseidon/src/static/task_scheduler.cpp: thread_loop, launch", "poseidon/src/static/timer_scheduler.cpp: thread_loop, insert_weak", "poseidon/src/static/logger.cpp: thread_loop, enqueue, synchronize, reload", "poseidon/src/fiber/abstract_future.cpp: do_abstract_future_initialize_once", "poseidon/src/socket/tcp_socket.cpp: tcp_send, tcp_shut_down", "poseidon/src/socket/ws_server_session.cpp: ws_send", "poseidon/src/http/websocket_deflator.cpp", "poseidon/src/easy"]}
{"id": "C105", "title": "The addresses of a socket are right whichever threads ask for them", "statement": "However many threads ask for the local or the remote address of a socket at the same time, every call returns the address of the socket as a whole, or the unspecified address if the socket had none when the system was asked, or the invalid address if the system reported an error; an address that is returned was obtained from the system; and once it has been returned to one thread, all calls that begin later return it, even after the socket has been disconnected. No two threads access the cached address at the same time with one of them writing it. (The code violates the last: threads that ask for the first time at the same time all write the cache, which is undefined behaviour.)", "quantifier": "every number of threads and calls, every interleaving of their accesses to memory, every moment of binding, connecting and disconnecting, every error of the system", "why_tests_cant": "All interleavings of accesses to single bytes; tests cannot enforce them.", "anchors": ["poseidon/src/socket/abstract_socket.cpp: local_address, remote_address", "poseidon/socket/ipv6_address.hpp: set_addr, set_port"]}
{"id": "C106", "title": "A UDP socket is in the multicast groups that have been joined and not left", "statement": "After any calls that join and leave multicast groups, a group that has been joined, and not left nor tried again since then, is one of the socket, and one which has been left or never joined is not, whichever calls for other groups succeeded or failed; an IPv4 group and an IPv6 group, and groups on different interfaces, are told apart. The TTL and the loopback of packets of a family are those of the last call that joined a group of it. A call succeeds if and only if the interface exists, the address is a multicast one, the group has not been joined (or has been, to leave it) and the kernel has no other error; otherwise it throws an exception, and one for leaving has no effect.", "quantifier": "every history of calls, every address and name of an interface, every failure of the system", "why_tests_cant": "Unbounded histories, with failures that cannot be provoked.", "anchors": ["poseidon/src/socket/udp_socket.cpp: join_multicast_group, leave_multicast_group"]}
{"id": "C107", "title": "What threads send through a WebSocket connection, the other end receives", "statement": "Any number of threads send messages through one session and close it, at the same time, with messages of any length, compressed or not, with or without context takeover, and with compression that may fail. The other end is told of exactly the messages whose calls have reported success, each once and unchanged; those of one thread in the order in which it sent them, and one whose call began after another one had returned behind that one; then of the first close, with its status and as much of its reason as fits; and of nothing behind that. A message that is lost because the connection is being closed does no harm to others. (The code violates this for frames that are split between reads, see C15, and for messages within the limit of the receiver whose compressed form is not.)", "quantifier": "every number of threads, calls, lengths, contents, every interleaving of them, every moment of closing, every division into reads, every compressor and decompressor as specified by zlib.h", "why_tests_cant": "All interleavings of any number of threads that share the state of a compressor; unbounded histories.", "anchors": ["poseidon/src/socket/ws_server_session.cpp: ws_send, ws_shut_down, do_ws_send_raw_frame, do_on_http_upgraded_stream", "poseidon/src/socket/ws_client_session.cpp: ws_send, ws_shut_down, do_ws_send_raw_frame", "poseidon/http/websocket_deflator.hpp: deflate_output_buffer", "poseidon/src/http/websocket_deflator.cpp", "poseidon/src/socket/tcp_socket.cpp: tcp_send"]}
{"id": "C108", "title": "The timer thread and the fiber thread take what is due first, and oversleep nothing", "statement": "Whichever timers are inserted and released, by any threads and at any moment, also while the timer thread sleeps, and whichever fibers are launched, rescheduled and made ready by other threads: what is taken next is the timer, or the fiber, with the least time of all, and its time has come; no thread sleeps while something is due that it could know about, nor longer than until the earliest time of all. The fiber thread never sleeps for longer than half a second. The queues are valid heaps whenever they are used as such, even after other threads have changed the times of fibers. The timer thread is never stuck. If nothing but sleep takes time, then the callback of every timer that is not released is run at each time of its schedule, at this time.", "quantifier": "every history of insertions, releases, wake-ups and callbacks, every number of timers and fibers, every result the heap functions of the C++ library may produce, every delay between reading the clock and sleeping", "why_tests_cant": "Unbounded histories; all interleavings of insertions with falling asleep; whichever order the library leaves elements in.", "anchors": ["poseidon/src/static/timer_scheduler.cpp: thread_loop, insert_weak", "poseidon/src/static/fiber_scheduler.cpp: thread_loop, launch"]}
{"id": "C109", "title": "The statements that check a MySQL table say what the structure says, and nothing else", "statement": "Whatever names and default values a table structure has, the statements that are sent for it are read by the server as: the creation of the table with this name and engine and exactly its columns and indexes that are not dropped, each with its type, attributes and default value; the queries of its columns and indexes; and, if and only if something does not match, its alteration by exactly the clauses that are needed. No text in the structure is taken for anything but a name or a value. (The code violates this for names with backticks.)", "quantifier": "every table structure, every name, string, number and date-time, every report of existent columns and indexes", "why_tests_cant": "Unbounded sets of texts, with all combinations of quotes and backslashes.", "anchors": ["poseidon/src/fiber/mysql_check_table_future.cpp: do_append_column_definition, do_append_index_definition, do_append_engine, do_on_abstract_future_initialize", "poseidon/src/mysql/mysql_value.cpp: print_to"]}
{"id": "C110", "title": "An easy client connects to the host of its address, says so to the server, and accepts no other", "statement": "`connect()` of easy clients takes exactly the addresses that are documented, and throws an exception for all others. All attempts to connect go to addresses of the host in it, and to the port in it, or to the documented port if it has none. Requests that do not say a host carry `host:port` of the address, and the request of a WebSocket client asks for the path and the query in the address. If the authorities to trust have been configured, then clients with SSL complete the handshake exactly with servers whose certificate is issued by one of them for the host in the address. (The code violates this: an empty address and fragments are accepted; the brackets of an IPv6 address are lost in `Host`; and certificates for whatever host are accepted for IPv6 addresses, for hosts of more than 253 characters, and by SSL clients for all addresses.)", "quantifier": "every address text, every kind of client, every result of the resolver, every request, every certificate", "why_tests_cant": "Unbounded sets of addresses; certificates of authorities that tests do not have.", "anchors": ["poseidon/src/easy/easy_https_client.cpp: connect", "poseidon/src/easy/easy_wss_client.cpp: connect", "poseidon/src/easy/easy_tcp_client.cpp: connect", "poseidon/src/easy/easy_ssl_client.cpp: connect", "poseidon/src/socket/https_client_session.cpp: HTTPS_Client_Session", "poseidon/src/socket/ws_client_session.cpp: WS_Client_Session", "poseidon/src/static/network_scheduler.cpp: reload"]}
{"id": "C111", "title": "A stop signal stops the process, in order and soon", "statement": "A SIGINT, SIGTERM, SIGHUP or SIGALRM that is delivered at any moment after the handlers have been installed, to any thread, neither kills the process nor gets lost; SIGPIPE and SIGCHLD have no effect. Startup is completed, or fails, first. Then no fiber is run any more but the one that is running, or one that is being taken; the main thread sleeps for no more than half a second, and not at all if it handles the signal itself while it is sleeping; it does a bounded number of steps and is never stuck. When the process exits, all messages that had been logged by any thread before it was stopped have been written (except those of expendable levels), its PID file is empty, and its exit status is 0; it never is 0 otherwise.", "quantifier": "every moment and number of signals, every thread that handles them, every state of the queue of fibers, the logger and the PID file, every interleaving of threads and other processes", "why_tests_cant": "Signals at all moments, interleaved with any number of threads and processes.", "anchors": ["poseidon/src/main.cpp: do_init_signal_handlers, do_create_resident_thread, do_exit_printf, main", "poseidon/src/static/fiber_scheduler.cpp: thread_loop", "poseidon/src/static/logger.cpp: synchronize"]}
{"id": "C112", "title": "What one HTTP session sends, the other one gets", "statement": "A client session sends any number of requests, each at once or in chunks, for any path and query, with any headers but those that the session itself adds, of which the last one may ask to close the connection. However the bytes are divided on the way, a server session reports each of them once, in order, with the same method, path, query, headers and payload, with the host that was set, or else that of the session, and with a header for the length or coding of the payload added; and it is told whether the client closes the connection. What the server then answers to each of them, at once or in chunks, the client gets likewise, in the order of its requests: with the same status, reason, headers and payload, without payload for HEAD requests, and it closes the connection if and only if it has been told so. (The code violates this for responses in chunks that say `Connection: close`: only their heads are sent.)", "quantifier": "every number of requests and responses, every path, query, header and payload, every division into chunks and into reads, every parser that reads valid messages as RFC 9112 says", "why_tests_cant": "Unbounded sequences of messages and divisions into reads.", "anchors": ["poseidon/src/socket/http_client_session.cpp: do_http_encode_request, http_request, http_chunked_request_start, http_chunked_request_send, http_chunked_request_finish, do_on_tcp_stream", "poseidon/src/socket/http_server_session.cpp: do_http_encode_response, http_response, http_chunked_response_start, http_chunked_response_send, http_chunked_response_finish, do_on_tcp_stream", "poseidon/src/http/http_request_parser.cpp", "poseidon/src/http/http_response_parser.cpp"]}
{"id": "C113", "title": "What an easy HTTP client asks, the callback of an easy HTTP server gets, and its answers get back to the callback of the client", "statement": "A client sends any number of requests through a session, at once or in chunks. The callback of an easy HTTP server is called, in its fiber, for the opening of the session, then for the requests, each once and in order, with what the client has set, and for the closure. If it answers each request that it is called for, then the callback of the easy HTTP client is called for the opening, then for exactly these answers, in the order of the requests, and for the closure. This holds however the bytes are divided into reads on both sides, and whenever the fibers run. (The code violates this for HEAD requests, see C96, for answers in chunks that say `Connection: close`, see C112, and if a session gets the address of another one, see C39.)", "quantifier": "every number of requests, every request and answer, every division into reads, every interleaving of the network thread and the fibers on both sides, every parser that reads valid messages as RFC 9112 says", "why_tests_cant": "Unbounded histories of two programs; all interleavings.", "anchors": ["poseidon/src/easy/easy_http_server.cpp", "poseidon/src/easy/easy_http_client.cpp", "poseidon/src/socket/http_client_session.cpp", "poseidon/src/socket/http_server_session.cpp"]}
{"id": "C114", "title": "What threads send through an easy WebSocket client, the callback of an easy WebSocket server gets, and the other way round", "statement": "A WebSocket client is given an address. What it sends is a handshake for the host, the path and the query of that address, which the server accepts, and whose answer the client accepts; both ends then agree on whether messages are compressed. What any number of threads send from then on, through either end, is shown to the callback at the other end, in its fiber: the opening, with the address; then the messages, each once, as it was sent, in the order in which they were accepted; then the end of the session, with the status and the reason of the first close. Requests that do not ask for WebSocket are refused; a response to switch protocols answers the key of the request. (The code violates this if a read ends inside a frame, see C90 and C92; for addresses in brackets, see C110; and if compression makes a message longer than the limit, see C107; or if the client has compression disabled, see C61.)", "quantifier": "every address, key, number of threads and messages, every interleaving of them, every division of the handshake into reads and of the frames into reads of whole frames, every interleaving of the network thread and the fibers at the other end, every parser and zlib that do what their documentation says", "why_tests_cant": "Unbounded histories of two programs; all interleavings.", "anchors": ["poseidon/src/easy/easy_ws_server.cpp", "poseidon/src/easy/easy_ws_client.cpp", "poseidon/src/socket/ws_client_session.cpp", "poseidon/src/socket/ws_server_session.cpp", "poseidon/src/http/websocket_frame_parser.cpp: create_handshake_request, accept_handshake_request, accept_handshake_response"]}
{"id": "C115", "title": "A value in an HTTP header says what was last put into it", "statement": "Whatever has been assigned to an `HTTP_Value`, parsed into it or cleared from it before, all its accessors and its text are those of what was last assigned or parsed: an integer is also a double, and its digits are its text; a double is also an integer exactly if it is one; a date has its RFC 1123 text and is no number; a text is a number or a date if it is one without blanks around it; a value that has been set is not null; after `clear()` there is nothing. (The code violates this: assigning a text that is no number leaves the number and the date of before in `as_integer()`, `as_double()` and `as_datetime()`, although `is_integer()` etc. are false then; and a date that has been parsed leaves `is_null()` true.)", "quantifier": "every history of assignments, parses and clears; every text, number and date; all libraries for numbers and dates", "why_tests_cant": "Unbounded histories and values.", "anchors": ["poseidon/http/http_value.hpp: HTTP_Value", "poseidon/src/http/http_value.cpp: do_update_variants, parse_quoted_string_partial, parse_datetime_partial, parse_token_partial, parse_unquoted_partial, parse, print_to"]}
{"id": "C116", "title": "A stream socket tells its user what happens to it, in order", "statement": "Whatever threads do to a TCP or SSL socket, and whatever its callbacks throw: its user is told at most once that the connection is open, before any data; then the data that have been received, in order, each byte once, in pieces that are not empty; then, at most once and last, that the socket is closed. (The code violates this: if data are sent and the socket is shut down before the connection is open, the callback for the opening is never called, but the callback for data is.)", "quantifier": "every number of threads, every interleaving of their calls with the network thread, every result of a system call, every event that the system reports and every exception from a callback", "why_tests_cant": "All interleavings and histories.", "anchors": ["poseidon/src/socket/tcp_socket.cpp: do_abstract_socket_on_readable, do_abstract_socket_on_writeable, do_abstract_socket_on_closed", "poseidon/src/socket/ssl_socket.cpp", "poseidon/src/static/network_scheduler.cpp: thread_loop"]}
{"id": "C117", "title": "What threads send through one end of a TCP connection, the callback at the other end gets", "statement": "Any number of threads send data through one end of a TCP or SSL connection. At any time, the data for which the callback of an easy server or client at the other end has been called, in its fiber, are the first bytes of what has been accepted (or is being sent), in the order in which it was accepted, each byte once, in whatever pieces the kernel takes and delivers them. When the end of the stream is seen, and the receiver has not been shut down itself before, they are all that had been accepted before the shutdown. The same holds in the other direction. Connections that have been abandoned (by an I/O error, an exception from a callback, the end of the other stream, or `quick_shut_down()`) are excepted.", "quantifier": "every number of threads and calls at both ends, every interleaving, every way in which the kernel takes and delivers bytes, every interleaving of the network thread and the fibers at the other end", "why_tests_cant": "Unbounded histories of two programs; all interleavings.", "anchors": ["poseidon/src/socket/tcp_socket.cpp", "poseidon/src/socket/ssl_socket.cpp", "poseidon/src/easy/easy_tcp_server.cpp", "poseidon/src/easy/easy_tcp_client.cpp", "poseidon/src/easy/easy_ssl_server.cpp", "poseidon/src/easy/easy_ssl_client.cpp"]}
{"id": "C118", "title": "What threads send through one UDP socket, the callback of an easy UDP server or client gets", "statement": "Any number of easy UDP servers and clients are on a network that may lose, repeat and reorder packets, but does not change them. Each packet that a callback gets has been sent by a thread, with success, with exactly these data, through a socket that has the address which the callback is told, to an address of the receiver. The callback gets what the network has brought, in order, each packet once, by one fiber at a time, and has got all of it when all fibers have returned, unless the object has been stopped or started again, or memory has run out. So if the network brings what one socket has sent, once and in order, then that is what the callback gets.", "quantifier": "every number of servers, clients, starts and threads, every interleaving of them with the network thread and the fibers, every network, every size of packets up to the limit of UDP, every behaviour of callbacks", "why_tests_cant": "Unbounded histories of many programs; all interleavings.", "anchors": ["poseidon/src/socket/udp_socket.cpp: do_abstract_socket_on_readable, udp_send", "poseidon/src/easy/easy_udp_server.cpp", "poseidon/src/easy/easy_udp_client.cpp"]}
{"id": "C119", "title": "The callback of an easy timer is called for the times of its schedule, in order, and never early", "statement": "`start(delay, period, callback)` of an easy timer throws an exception and changes nothing if the delay or the period is negative or over 24000 hours; otherwise the times that the callback is called with, in its fiber, are the first so many of now + delay, now + delay + period, now + delay + 2 period, …: without gaps unless memory runs out or the object is stopped or started again, and then still in order and each at most once. It is never called before its time. With a period of zero it is called at most once. It is called by one fiber at a time, and the timer that it is told exists as long as it runs. Every tick of the timer thread has reached the callback when the fibers have returned; and if nothing takes time but sleep, no time of the schedule is missed.", "quantifier": "every number of easy timers, other timers, starts, stops and abandonments, every interleaving of all threads with the timer thread and the fibers, every behaviour of callbacks, every history of the clock", "why_tests_cant": "Unbounded histories; all interleavings and clocks.", "anchors": ["poseidon/src/easy/easy_timer.cpp", "poseidon/src/static/timer_scheduler.cpp: thread_loop, insert_weak"]}
{"id": "C120", "title": "Destroying nested database values frees what is not shared, once, without deep recursion", "statement": "However deeply the arrays and objects of a MongoDB or Redis value are nested, and however many variables and threads share parts of them (copies share storage), destroying values never touches storage that has been freed; storage that another variable or container still refers to is kept, and storage that nothing refers to is freed, by the time the destructors have returned; every destructor returns; and the destructors do not recurse with the depth of the value.", "quantifier": "every forest of shared containers, every interleaving of destructors and copies in any number of threads, and every number of times memory runs out inside a destructor", "why_tests_cant": "A stack overflow depends on the depth of what a peer sends; double frees depend on the interleaving of the reference counts of several threads.", "anchors": ["poseidon/src/mongo/mongo_value.cpp: MongoDB_Value::~MongoDB_Value", "poseidon/src/redis/redis_value.cpp: Redis_Value::~Redis_Value"]}
{"id": "C121", "title": "A WebSocket session answers PINGs and CLOSE frames", "statement": "In every history, each PING of which a WebSocket application hears has been answered, just before, with exactly one PONG frame that has the same payload and is legal for the other end. When reads consist of whole legal frames, exactly the PINGs that come before a CLOSE frame are answered, in order, whatever messages they are inside of. While it processes what it receives, the session sends nothing else, but at most one CLOSE frame, after it has reported the end. A CLOSE frame from the other end is answered with a CLOSE frame; and after a protocol error the CLOSE frame says so. (The code violates the last two: a received CLOSE frame is not answered and the connection is left open; and the CLOSE frame after an error says status 1000, normal closure.)", "quantifier": "every stream of bytes, every way in which it is cut into reads, every behaviour of callbacks, exceptions while sending, and calls of other threads in between", "why_tests_cant": "All streams, all cuts and all histories.", "anchors": ["poseidon/src/socket/ws_server_session.cpp: do_on_http_upgraded_stream, do_ws_send_raw_frame, do_call_on_ws_close_once", "poseidon/src/socket/ws_client_session.cpp", "poseidon/src/socket/wss_server_session.cpp", "poseidon/src/socket/wss_client_session.cpp"]}
{"id": "C122", "title": "A client whose connection is shut down with a status gets a page that says so", "statement": "When a server session has sent any number of responses and then calls `http_shut_down(status)`, a client gets these responses and then one more: with this status (400 if the number is not between 200 and 599), its usual reason, and an HTML page that shows both; and then the connection is closed. Nothing that is sent afterwards reaches the client. (The code violates this for statuses 204 and 304, and for HEAD requests: the page is sent although such responses have no payload, so the client reports an error.)", "quantifier": "every sequence of earlier responses, every number, every way in which the bytes are split on the way, every behaviour of the client's callbacks", "why_tests_cant": "All histories, all numbers and all splits.", "anchors": ["poseidon/src/socket/http_server_session.cpp: http_shut_down, do_http_raw_response", "poseidon/src/socket/https_server_session.cpp: http_shut_down", "poseidon/src/socket/http_client_session.cpp"]}
{"id": "C123", "title": "What a fiber asks a database for, it gets", "statement": "A fiber makes a Redis, MySQL or MongoDB query and waits for it. When it goes on normally, the query has completed, no server sees anything of it any more, and if it is successful, its command has been sent to the server once, with its own arguments, over one connection: to the default service of a configuration that had been loaded, or one that the query was made with, opened before if it was not open. Nothing else is sent on behalf of the query, and its result is the reply to its command. Whatever becomes of a query, its command is sent at most once. A query that begins after another one has completed is seen by the servers after it. An error of the server is reported to the fiber; and a new configuration applies to queries that begin after it has been loaded. (The code violates the last two: see C37, so a fiber that checks for success does not hear about the error; and a connection whose login failed goes back to the pool with its old password, so queries go on to fail after the password in the configuration has been corrected.)", "quantifier": "every number of fibers, threads, queries, connections, other users of connections and reloads, every interleaving of their steps with the scheduler, every behaviour of servers", "why_tests_cant": "All interleavings of unbounded histories of several components.", "anchors": ["poseidon/src/fiber/redis_query_future.cpp", "poseidon/src/fiber/mysql_query_future.cpp", "poseidon/src/fiber/mongo_query_future.cpp", "poseidon/src/fiber/abstract_future.cpp", "poseidon/src/static/redis_connector.cpp", "poseidon/src/static/mysql_connector.cpp", "poseidon/src/static/mongo_connector.cpp", "poseidon/src/static/fiber_scheduler.cpp: yield, thread_loop"]}
{"id": "C124", "title": "What is said about errors", "statement": "An exception that the library throws says, in this order: the message, without blanks and line breaks at its end; the function, the file and the line where it has been thrown; and, if the stack can be examined, all callers, one on each line, in the order of the stack, with consecutive numbers from 1 on that are aligned, each with its address, its name and the offset if they are known. A message that is logged loses blanks and line breaks at its end and nothing else, so that its entry always has the format of C50.", "quantifier": "every message, function, file, line and every stack of less than a hundred million callers", "why_tests_cant": "All texts and all depths of stacks; the column of numbers is a buffer that is partly overwritten for each caller.", "anchors": ["poseidon/src/utils.cpp: do_push_log_message, do_create_runtime_error", "poseidon/src/static/logger.cpp"]}
{"id": "C125", "title": "Log files", "statement": "Each message is written to every file that is configured for its level, once for each time the file is listed, and to no other file. Messages are in order in each file. Files are opened for appending, at most once for each group of messages that are written together, so that files that have been moved or removed are made again; a file that cannot be opened is left out until the next group, and others are not affected. What gets into a file is always a beginning of an entry; and unless the operating system refuses, it is all of it, so there is one line for each message. (The code violates the last part in this case: if only a part of an entry is accepted by the operating system, the rest is lost, and the next entry follows on the same line.)", "quantifier": "every configuration of files, every sequence of messages in every grouping, every behaviour of the operating system", "why_tests_cant": "All sequences of failures of the operating system.", "anchors": ["poseidon/src/static/logger.cpp: do_write_nothrow, thread_loop, synchronize"]}
{"id": "C126", "title": "From a log statement to the files", "statement": "Whatever threads log, write, synchronize and load configurations at the same time, each log file has entries of messages in the order in which the messages were enqueued, at most as often for each message as the file is listed, and nothing else. Each entry is formatted with the properties of the level of the message in a configuration that was in force when the message was enqueued or that was loaded later, never with an older one. If the operating system refuses nothing, then when synchronize() returns, every message that had been enqueued before it was called and whose level is not expendable is in all files of its level.", "quantifier": "every number of threads and every interleaving of enqueuing, writing, synchronizing and loading configurations; every behaviour of the operating system for the order", "why_tests_cant": "All interleavings of any number of threads with loading of configurations.", "anchors": ["poseidon/src/static/logger.cpp: enqueue, thread_loop, synchronize, reload, do_write_nothrow"]}
{"id": "C127", "title": "What has been begun ends", "statement": "If threads are scheduled fairly and mutexes are fair: a call of synchronize() of the logger returns, every message that is enqueued is eventually processed, and it is written if its level is never expendable; every task that is launched is eventually executed unless it is abandoned, and calls of launch() return, if the execution of every task ends and no task launches another one while a thread waits to execute the same task once more (see C33 for what happens then). If time goes on and callbacks return, a timer that is not released fires at all times of its schedule, one after another. If time goes on, the configured limits are positive, initializers of futures exit and no fiber keeps its thread for ever, every fiber that is launched begins to execute unless it is abandoned, and a fiber that is suspended in yield() is resumed, whether the future that it waits for completes or not.", "quantifier": "every infinite execution that is fair, with any number of threads, whatever others do at the same time", "why_tests_cant": "A statement about infinite executions; no finite test can refute or settle it.", "anchors": ["poseidon/src/static/logger.cpp: enqueue, thread_loop, synchronize", "poseidon/src/static/task_scheduler.cpp: launch, thread_loop", "poseidon/src/static/timer_scheduler.cpp: insert_weak, thread_loop", "poseidon/src/static/fiber_scheduler.cpp: launch, yield, thread_loop", "poseidon/src/fiber/abstract_future.cpp: do_abstract_future_initialize_once"]}
{"id": "C128", "title": "Queries end", "statement": "If threads that execute queries are scheduled fairly, so that calls to database servers return or throw, every Redis, MySQL or MongoDB query whose execution has begun completes; then each fiber that had begun to wait for it is notified unless it does not exist any more, the connection is returned to the pool unless it cannot be reset or nothing is to be pooled, and the execution ends: no thread is stuck, whatever the servers reply and in whatever state connections are. If in addition time goes on, the configured limits are positive and fibers do not keep their thread, a fiber that is suspended while it waits for a query is resumed; that initializers exit need not be assumed here.", "quantifier": "every infinite execution that is fair, with any number of fibers, threads, queries, connections and other users of connections, every behaviour of servers", "why_tests_cant": "A statement about infinite executions; no finite test can refute or settle it.", "anchors": ["poseidon/src/fiber/redis_query_future.cpp", "poseidon/src/fiber/mysql_query_future.cpp", "poseidon/src/fiber/mongo_query_future.cpp", "poseidon/src/fiber/abstract_future.cpp: do_abstract_future_initialize_once", "poseidon/src/static/fiber_scheduler.cpp: yield, thread_loop"]}
{"id": "C129", "title": "Everything that arrives reaches the callback", "statement": "If no fiber keeps the fiber thread for ever, fibers are resumed fairly and callbacks return: every packet that has arrived at a UDP server or client, and every tick of an easy timer, is eventually passed to the callback, in order, unless it is stopped or started again; everything that has happened to the socket of a session of a TCP, TLS, HTTP or WebSocket server or client, up to its closure, is eventually passed to the callback: every byte that has been read from a stream, every good request or response whose bytes have arrived, in whatever pieces, and, after a WebSocket handshake, the opening of the session, every text, binary and PONG message and the CLOSE frame, also behind plain requests to a server for both protocols, unless memory runs out or the server or client is stopped.", "quantifier": "every infinite execution that is fair, with any number of sessions, fibers and packets, whatever other threads do", "why_tests_cant": "A statement about infinite executions; no finite test can refute or settle it.", "anchors": ["poseidon/src/easy/easy_udp_server.cpp", "poseidon/src/easy/easy_udp_client.cpp", "poseidon/src/easy/easy_timer.cpp", "poseidon/src/easy/easy_tcp_server.cpp", "poseidon/src/easy/easy_tcp_client.cpp", "poseidon/src/easy/easy_http_server.cpp", "poseidon/src/easy/easy_ws_server.cpp", "poseidon/src/easy/easy_ws_client.cpp", "poseidon/src/easy/easy_hws_server.cpp", "poseidon/src/easy/easy_http_client.cpp"]}
{"id": "C130", "title": "What is sent leaves, and what is shut down closes", "statement": "If threads are scheduled fairly, callbacks return and the peer does not send faster than data can be read for ever: every call of a function of a TCP or TLS socket returns, from whatever thread or callback; every call of tcp_send() or ssl_send() is answered; and everything that epoll_wait() reports about the socket is passed to the callbacks. If in addition the operating system takes data again and again while data are left to be sent, and reports the socket as writeable after it has refused data (edge-triggered: it need not repeat a report), then all data that have been accepted before the connection is shut down are eventually given to the operating system, and after tcp_shut_down() or ssl_shut_down() has returned true the connection is eventually shut down, unless it is abandoned or closed before.", "quantifier": "every infinite execution that is fair, with any number of threads, whatever they call from wherever", "why_tests_cant": "A statement about infinite executions; no finite test can refute or settle it.", "anchors": ["poseidon/src/socket/tcp_socket.cpp", "poseidon/src/socket/ssl_socket.cpp", "poseidon/src/socket/abstract_socket.cpp: quick_shut_down", "poseidon/src/static/network_scheduler.cpp: thread_loop"]}
{"id": "C131", "title": "What is sent arrives", "statement": "If a TCP or TLS socket of this library is connected to another one, threads at both ends are scheduled fairly, callbacks return, the sender can give data to the operating system again and again, the receiver is not throttled for ever by what it sends itself, and the operating system reports data and the end of the stream to the receiver (edge-triggered: it need not repeat a report until it has been asked in vain): all data that tcp_send() or ssl_send() has accepted at one end, before this end is shut down, are eventually passed to the stream callback at the other end, whatever the pieces in which they travel; and after tcp_shut_down() or ssl_shut_down() has returned true at one end, the user at the other end is eventually told about the end of the stream; unless the sender abandons the connection, or the receiver shuts it down before it has seen the end, or one of both sockets is closed.", "quantifier": "every infinite execution that is fair, with any number of threads at both ends, whatever they call from wherever", "why_tests_cant": "A statement about infinite executions of two processes; no finite test can refute or settle it.", "anchors": ["poseidon/src/socket/tcp_socket.cpp", "poseidon/src/socket/ssl_socket.cpp", "poseidon/src/static/network_scheduler.cpp: thread_loop"]}
{"id": "C132", "title": "What is sent at one end reaches the callback of the easy server or client at the other", "statement": "If a TCP or TLS socket of this library is connected to a session of an easy server or client of this library, and both ends are scheduled fairly, callbacks return, and the operating system transports and reports data (edge-triggered): all data that tcp_send() or ssl_send() has accepted at one end, before this end is shut down, are eventually passed to the callback of the easy TCP or TLS server or client at the other end, in its fiber, in order and without gaps; after tcp_shut_down() has been called, this callback is told about the end of the stream; and if what is sent are good HTTP requests (or responses), in whatever calls and pieces, the callback of the easy HTTP server (or client) is called for the opening of the session and for each of them. Exceptions: the connection is abandoned or closed, the receiver shuts it down itself, memory runs out, or the server or client is stopped.", "quantifier": "every infinite execution of both ends that is fair, with any number of threads, sessions, fibers, messages and pieces", "why_tests_cant": "A statement about infinite executions of two processes; no finite test can refute or settle it.", "anchors": ["poseidon/src/socket/tcp_socket.cpp", "poseidon/src/socket/ssl_socket.cpp", "poseidon/src/static/network_scheduler.cpp: thread_loop", "poseidon/src/easy/easy_tcp_server.cpp", "poseidon/src/easy/easy_tcp_client.cpp", "poseidon/src/easy/easy_http_server.cpp", "poseidon/src/easy/easy_http_client.cpp"]}
