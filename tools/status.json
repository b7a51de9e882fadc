{
 "C01": [
  "proved",
  "Print/parse round trip and exact acceptance for parse(). The throwing constructor additionally accepts the empty text: C01_constructor_partial excludes it, C01_constructor_accepts_empty is the witness."
 ],
 "C02": [
  "proved",
  "compare, equals and is_nil modelled lane by lane (SSE2)."
 ],
 "C03": [
  "proved",
  "All draws, clocks, process ids and generator states."
 ],
 "C04": [
  "partial",
  "Strictly increasing under exactly the stated conditions; the documentation's unconditional ordering is false, with witnesses for serial wrap and clock step back."
 ],
 "C54": [
  "proved",
  ""
 ],
 "C05": [
  "proved",
  "Exact on the stated range; C05_low_window_wrong shows every time of the excluded 854.8 ms window converts wrongly."
 ],
 "C18": [
  "proved",
  "For every byte string the decoded encoding is the canonical form; identity on canonical absolute paths."
 ],
 "C19": [
  "proved",
  "Canonical form for well-formed escapes, structure for malformed ones (C19_malformed_partial), violation witness C19_trailing_dots_survive."
 ],
 "C20": [
  "proved",
  "Soundness and completeness; C20_failure_changes_host records that a rejected text may have changed the host."
 ],
 "C52": [
  "proved",
  "All ints except the lowest 488/309, where C52_lowest_wrong shows the result is not congruent."
 ],
 "C53": [
  "proved",
  "Round trip for non-blank trimmed segments, padding, limit; witnesses for leading delimiters and blank pieces."
 ],
 "C55": [
  "proved",
  ""
 ],
 "C08": [
  "proved",
  "Layout for every header; parse for every header legal at that point, rejection without consuming a byte otherwise."
 ],
 "C09": [
  "proved",
  "The alignment loop, the SIMD loop, the word loop and the byte loop are modelled separately; every address, key and way of cutting."
 ],
 "C10": [
  "proved",
  "Whole frames, any number, arbitrary payloads within the limit."
 ],
 "C11": [
  "partial",
  "Proved for every byte string and every cut unless the first byte starts or ends a fragmented message; C11_violated shows that for those frames every cut after the second byte makes the parser reject a legal frame."
 ],
 "C12": [
  "proved",
  "Every cut of the payload; limit as an invariant; excess raises the exception."
 ],
 "C14": [
  "proved",
  "callbacks, socket state and zlib are arbitrary; histories of any length"
 ],
 "C15": [
  "partial",
  "Holds when every compressed message is one frame and reads end after a frame, after the header of a frame that is not compressed, or inside the payload of a continuation or a control frame (C15_cut_partial: any mixture of compressed messages, fragmented plain messages and control frames; the others are special cases); violated when a header or the payload of a first frame is cut (C15_violated_cut: every uncompressed message in one frame whose payload is read in two parts is delivered without its first part), and for compressed messages in several frames (witnesses)."
 ],
 "C16": [
  "proved",
  "deflate is a parameter"
 ],
 "C17": [
  "partial",
  "Every non-empty list of pairs; C17_violated: the empty query string yields one nameless element."
 ],
 "C21": [
  "partial",
  "Texts of token characters and quoted texts, control characters and runs of spaces collapse to a space; texts that look like numbers or dates are printed as such (C21_violated); number/date routines are parameters."
 ],
 "C22": [
  "proved",
  ""
 ],
 "C23": [
  "partial",
  "Headers of one line each and without their own Content-Length or Transfer-Encoding; violated by user-supplied Content-Length and by line breaks in values (witnesses)."
 ],
 "C24": [
  "proved",
  ""
 ],
 "C13": [
  "proved",
  "Any headers, any library behaviour."
 ],
 "C59": [
  "proved",
  ""
 ],
 "C60": [
  "proved",
  ""
 ],
 "C61": [
  "partial",
  "Requires that the client's configured compression level is not zero; C61_violated shows the disagreement otherwise."
 ],
 "C40": [
  "proved",
  ""
 ],
 "C41": [
  "proved",
  ""
 ],
 "C62": [
  "partial",
  "Proved: text round trip, length, constructor. Missing: rejection of the empty text, which the code accepts (witness C62_constructor_accepts_empty)."
 ],
 "C25": [
  "proved",
  ""
 ],
 "C26": [
  "partial",
  "Everything accepted is sent before a graceful shutdown (C26_drained). Calls of tcp_send that begin after tcp_shut_down returned are refused; a call in progress at that time may return true although its data is never sent (C26_race_loses_data)."
 ],
 "C27": [
  "proved",
  ""
 ],
 "C28": [
  "partial",
  "Holds if callbacks consume everything; C28_bytes_lost shows the loss otherwise."
 ],
 "C30": [
  "proved",
  ""
 ],
 "C31": [
  "proved",
  ""
 ],
 "C63": [
  "proved",
  ""
 ],
 "C29": [
  "proved",
  "C29_stale_event: an event buffered for a destroyed socket may be delivered to a new one at the same address."
 ],
 "C32": [
  "proved",
  "After a release, at most the one callback that the timer thread was already about to make still begins (C32_after_release)."
 ],
 "C33": [
  "proved",
  "C33_last_in_first_out documents the order within a batch; C33_deadlock: launching a task again while it runs can block all threads."
 ],
 "C34": [
  "proved",
  "Sequentially consistent interleavings; wake-up, resumption, scan and sleep bounds."
 ],
 "C36": [
  "proved",
  "C36_foreign: an initializer that throws something not derived from std::exception may run again."
 ],
 "C37": [
  "partial",
  "Violated: check_success() on a failed future returns normally (C37_not_rethrown), and so does yield() (C37_yield_ignores_failure). Proved: checking an uncompleted future throws."
 ],
 "C64": [
  "proved",
  ""
 ],
 "C65": [
  "partial",
  "Proved if both timeouts are positive and no fiber is launched with an earlier time; C65_starved: a warning timeout of zero starves a fiber."
 ],
 "C66": [
  "partial",
  "Violated while an initializer runs (C66_blocked); otherwise the fiber thread can always go on."
 ],
 "C35": [
  "proved",
  "Sequentially consistent interleavings of any number of threads; also no wild access and no leak."
 ],
 "C48": [
  "proved",
  "every tree, path and spacing; text after a missing part is not examined (C48_rest_ignored)"
 ],
 "C49": [
  "proved",
  ""
 ],
 "C50": [
  "proved",
  "tag, color, thread name, function and file are assumed free of control characters; the message text is arbitrary. C1 controls encoded in UTF-8 are not escaped, nor claimed"
 ],
 "C51": [
  "proved",
  "any number of threads; enqueue, thread_loop, synchronize and reload interleave at lock granularity"
 ],
 "C06": [
  "partial",
  "Round trip for every representable time from 1900 on, all five formats, alone and through parse(), with trailing text. RFC 850 only within 1969..2068 and without trailing text, Git only if the zone offset is whole minutes: witnesses C06_rfc850_century, C06_rfc850_trailing, C06_git_seconds. Clamping fails at the lowest 0.85 s (C06_lowest); dates after 2262 overflow (C06_overflow)."
 ],
 "C07": [
  "proved",
  "All interleavings of any number of processes over one shared directory of lock files (contract of open/flock: exclusive lock per file, released by close). The index is the smallest that is free whenever nobody else acts during the call; in general each smaller index was found taken at some moment of the call (C07_smallest); C07_not_smallest shows that nothing stronger can hold when another process withdraws meanwhile."
 ],
 "C42": [
  "proved",
  "hiredis replies as trees of any depth and width; the explicit-stack loop is proved equal to recursion."
 ],
 "C46": [
  "partial",
  "Packing is exact for all documents (C46_pack). Unpacking is proved for documents in which only the last element of each container is a nonempty container (C46_roundtrip_partial); for others it is false of the code: fetch_reply() resumes in the nested container instead of the enclosing one (C46_misplaced, C46_one_element). Date-times that do not fit in nanoseconds overflow (C46_overflow)."
 ],
 "C47": [
  "proved",
  "Explicit-stack printers of Redis and Mongo values equal the recursive grammar, for trees of any depth; how one scalar or key is printed is a parameter for Mongo and modelled for Redis."
 ],
 "C56": [
  "partial",
  "All files, offsets, limits and short reads; limits of 2^63 and above throw instead of reading to the end (C56_limit_fails)."
 ],
 "C57": [
  "proved",
  "getaddrinfo() results are arbitrary lists."
 ],
 "C58": [
  "partial",
  "Proved under the contract that erasing from the map while iterating moves no other element (the map is in an empty submodule and cannot be read); C58_relocation shows that the loop skips keys for a map with another contract, although such a map keeps all other elements when one is erased (C58_probing). A reply of the wrong length is covered by C58_short."
 ],
 "C43": [
  "proved",
  "All byte strings. The reader is MySQL's grammar of string literals with backslash escapes enabled and a character set such as utf8mb4."
 ],
 "C44": [
  "partial",
  "Proved for all zones and instants that the property names, except the first 0.85 s that a 64-bit count of nanoseconds can hold (C44_lowest). C44_offset gives the exact error for all other offsets; C44_uninitialized shows that values without an encoded offset depend on uninitialized memory."
 ],
 "C45": [
  "partial",
  "Equivalence of 'nothing to alter' with an independent definition of a matching table, for reports in any order; convergence after ALTER and after CREATE for sound structures and servers that report types as the program expects; every part of an alteration is needed, and other columns and indexes are left as they are. Witnesses for the structures and servers for which the code does not converge."
 ],
 "C38": [
  "partial",
  "Ownership, service, reset refusal and bounds are proved for all histories. Missing: the size is exceeded after it has been made smaller (C38_shrink), an expired connection may be given out (C38_expired), passwords are not compared (C38_password), and Redis sessions are not reset (C38_redis_session)."
 ],
 "C39": [
  "partial",
  "Proved for every interleaving in which no object is created at the address of a destroyed one while a fiber for the latter has not returned: order, exactly once, close last, no concurrency, no lost wake-up, stream data. Without that proviso the property fails (C39_reuse); an uninitialized event type can swallow the closure notification (C39_error_type), and lack of memory destroys a queue in use (C39_dangling)."
 ],
 "C67": [
  "proved",
  "zlib is a contract (zlib.h), shown to be satisfiable by an instance; a message is one frame, as sent by the code (fragments received from others are in C15)"
 ],
 "C68": [
  "proved",
  "zlib is a contract (zlib.h); not claimed: deflate() after finish(), which zlib.h does not allow although the header of the class says it returns zero"
 ],
 "C69": [
  "proved",
  ""
 ],
 "C70": [
  "partial",
  "Proved if descriptors suffice; otherwise violated, exactly as C70_endless says"
 ],
 "C71": [
  "partial",
  "All but the last part proved; that is violated (C71_after_stop) and proved if no packet is being received"
 ],
 "C72": [
  "proved",
  "all divisions into pieces"
 ],
 "C73": [
  "partial",
  "violated by the code: paths with \"://\" in the query are rejected (C73_url_in_query), \"@\" in the query of a URI without path (C73_at_in_query); proved for all other targets"
 ],
 "C74": [
  "partial",
  "violated by the code for IPv6 addresses (C74_ipv6) and through C73; proved for all other requests"
 ],
 "C75": [
  "partial",
  "strict order is proved for histories without an error with status 400, up to the first exception; the code violates the rest (C75_no_host, C75_proxy, C75_limit)"
 ],
 "C76": [
  "partial",
  "for derived classes that leave the payload alone and do not switch protocols within a request; the code violates it otherwise (C76_switch, C76_tunnel)"
 ],
 "C77": [
  "proved",
  ""
 ],
 "C78": [
  "partial",
  "proved for all ints but the 488 least ones, for which the code is wrong (C78_least_violated)"
 ],
 "C79": [
  "partial",
  "within 0.51 degrees for all non-zero vectors; nearest degree, the range and infinite pairs are violated by the code"
 ],
 "C80": [
  "proved",
  "for every rounding that satisfies Spec.Rounds"
 ],
 "C81": [
  "partial",
  "texts of printable ASCII characters and characters with short escapes are read back, in values of any depth; for every other text the output is not JSON (violated); floating-point numbers are not modelled"
 ],
 "C82": [
  "partial",
  "the pieces make no difference; the limit is not applied to a reason without headers"
 ],
 "C83": [
  "partial",
  "for libraries that are ready for a new message after the end of the stream, up to the first exception; the others do not return (C83_hang); after an exception see C83_limit"
 ],
 "C84": [
  "partial",
  "for classes that leave the payload in the buffer; for the others see C85"
 ],
 "C85": [
  "proved",
  ""
 ],
 "C86": [
  "proved",
  ""
 ],
 "C87": [
  "proved",
  "C87_null shows what becomes of a password with a null character."
 ],
 "C88": [
  "partial",
  "Unsigned integers above 2^63-1 become negative (C88_unsigned). Date-times as in C44."
 ],
 "C89": [
  "proved",
  "Conversions of single values are those of C42, C46 and C88. C89_mongo_stale is about a command that cannot be composed."
 ],
 "C90": [
  "partial",
  "All parts are proved except that the acceptance comes before the close, which is violated after a rejected request (C90_violated) and proved otherwise; frames are delivered for reads that end at frames (C90_session), after headers, and inside continuation and control frames (C90_cut_partial), and violated for others (C90_violated_header, C15_violated_payload)."
 ],
 "C91": [
  "proved",
  "For all streams, all callbacks, and whatever arrives after exceptions."
 ],
 "C92": [
  "partial",
  "Delivery from the handshake on, order, at most one report and close for all streams and callbacks; first-report part only for one response, because the code violates it otherwise (C92_violated, C92_violated_status); frames are delivered for reads that end at frames (C92_session), after headers, and inside continuation and control frames (C92_cut_partial), and violated for others (C92_violated_header, C15_violated_payload)."
 ],
 "C93": [
  "proved",
  "For all streams, all callbacks, and whatever arrives after exceptions."
 ],
 "C94": [
  "partial",
  "The code violates the full property when a session gets the address of another one for which a fiber is still waiting (see C39): proved for all runs in which this does not happen."
 ],
 "C95": [
  "partial",
  "The same restriction as for C94. Requests to proxies are excluded, see C75; so is status 101, which ends the sequence of requests."
 ],
 "C96": [
  "partial",
  "The same restriction as for C94. The code violates the property for responses to HEAD requests (C96_head)."
 ],
 "C97": [
  "partial",
  "The code violates the full property (C97_two, C97_emptied). Proved: writers are alone; with an atomic change of locks, processes are alone and the file has the process ID or nothing."
 ],
 "C98": [
  "proved",
  ""
 ],
 "C99": [
  "partial",
  "The code violates the property for the log: after a rejected file all levels are considered enabled (`C99_enabled`); everything else is proved."
 ],
 "C100": [
  "partial",
  "The code violates the last part: a failure to resolve or connect is not reported (`C100_silent`); everything else is proved."
 ],
 "C101": [
  "partial",
  "The same restriction as for C94. Full delivery is proved for reads that end at frames, after headers, and inside continuation and control frames (C101_cut_partial), with compression if compressed messages are in one frame; the code violates it otherwise (C90_violated_header, C90_violated, C15_violated_payload, C15_violated_compressed)."
 ],
 "C102": [
  "partial",
  "The same restriction as for C94. Full delivery is proved for reads that end at frames, after headers, and inside continuation and control frames (C102_cut_partial), with compression if compressed messages are in one frame; the code violates it otherwise (C92_violated_header, C92_violated, C15_violated_payload, C15_violated_compressed)."
 ],
 "C103": [
  "partial",
  "Order, single opening and end, and the delivery of plain requests, messages and the end are proved for all streams, divisions and schedules, with the limits of C39 and C90 (C103_session_partial and, for reads that end inside frames, C103_cut_partial); responses in order are violated (C103_violated)."
 ],
 "C104": [
  "partial",
  "proved when no task is executed by two threads and no session is sent compressed messages both from its own callbacks in the network thread and from elsewhere; in both cases the code deadlocks (C104_violated_compression, C104_violated_task). Network callbacks do not initialize futures; mutexes of user code and blocking system calls are not modelled."
 ],
 "C105": [
  "partial",
  "Proved for memory that is accessed one byte at a time in some order; but threads that ask for the first time at the same time race (C105_violated_race, C105_violated_read), which C++ leaves undefined. C105_no_race_partial: there is no race once a call has returned the address with none under way."
 ],
 "C106": [
  "proved",
  "For all histories of calls and failures."
 ],
 "C107": [
  "partial",
  "Proved for every interleaving and every division into reads of whole frames, provided that no compressed frame is longer than the limit of the receiver. Violated for frames split between reads (C15_violated_payload, C15_violated_header) and for compressed forms longer than the limit (C107_violated_limit)."
 ],
 "C108": [
  "proved",
  "heap functions and the condition variable are contracts"
 ],
 "C109": [
  "partial",
  "Proved for all structures whose names have no backticks and which have a column that is not dropped; violated for the others (C109_violated). How doubles are printed is a parameter."
 ],
 "C110": [
  "partial",
  "Addresses without brackets and fragments, of HTTP(S) and WebSocket clients, are covered in full, as is the choice of host and port for all of them. The code accepts an empty address and fragments; loses the brackets of IPv6 addresses, so that the Host header is wrong and the name in the certificate is not verified; and does not verify names for hosts of more than 253 characters and in SSL clients (witnesses beside the theorems)."
 ],
 "C111": [
  "proved",
  "Composition of signal handlers, main loop, queue of fibers, logger and PID file; fairness of mutexes and of the scheduler of the system is not modelled: what is proved is that some thread can always go on and that the main thread has a bounded number of steps left."
 ],
 "C112": [
  "partial",
  "Responses in chunks that say Connection: close are excluded, because the code sends only their heads (C112_chunked_close). Requests through proxies and CONNECT are left to C74 and C110. That http-parser reads valid messages is an assumption; C112_contract shows that it can be met."
 ],
 "C113": [
  "partial",
  "The same restriction as for C94; not for HEAD requests (violated, C96_head) and for answers in chunks that say Connection: close (violated, C112_chunked_close)."
 ],
 "C114": [
  "partial",
  "The code violates the full property for reads that end inside a frame, for addresses in brackets, for compressed messages that exceed the limit, and if the compression level of the client is zero (C61, C90, C92, C107, C110)."
 ],
 "C115": [
  "partial",
  "The full property is violated (C115_stale, C115_null_date): assigning a text leaves old numbers in place, and parsed dates are null. Proved: what is said by those who ask first is right for every history, and everything is right for all other calls."
 ],
 "C116": [
  "partial",
  "The data are told in order and once, and opening and closure at most once, always (C116_data, C116_once); that the opening comes before data only if nobody shuts the socket down before it, because the code violates it (C116_no_opening), and if the system reports writability first."
 ],
 "C117": [
  "partial",
  "Proved for both directions between sockets (C117_received, C117_end, C117_back); up to the callback only if no object is created at an address for which a fiber has not returned (as C39)."
 ],
 "C118": [
  "proved",
  "For all networks that do not change packets; that UDP does not is an assumption."
 ],
 "C119": [
  "proved",
  ""
 ],
 "C120": [
  "partial",
  "No access to freed storage, no leak, no loss of what is still referred to and termination are proved for any number of threads (C120_defined, C120_kept, C120_freed, C120_terminates). That the recursion is bounded is proved where one thread destroys and memory does not run out (C120_depth_partial); with two threads it is false (C120_recursion)."
 ],
 "C121": [
  "partial",
  "Proved: every reported PING has been answered, in every history; nothing else is sent but one CLOSE frame; with whole frames per read, PONGs and PINGs correspond one by one, in order. Violated, with witnesses: the answer to a CLOSE frame, and the status after an error. Missing: that PINGs are heard when reads end inside frames (see C15)."
 ],
 "C122": [
  "partial",
  "Proved for all statuses but 204 and 304, when the page is not for a HEAD request; violated in these cases, with witnesses. What http-parser does with responses that end with the connection is a contract, which is shown to be satisfiable."
 ],
 "C123": [
  "partial",
  "The code violates the reporting of errors (C123_silent, after C37) and the use of a corrected password (C123_stale_password); everything else is proved. Rows of MySQL results with date-times: see C89."
 ],
 "C124": [
  "proved",
  ""
 ],
 "C125": [
  "partial",
  "C125_torn shows what becomes of the next entry when the operating system accepts only a part of one; all else is proved for every behaviour of the operating system."
 ],
 "C126": [
  "proved",
  "The contents of log files for all interleavings of threads and loading of configurations, and what synchronize() guarantees."
 ],
 "C127": [
  "proved",
  "Logger: synchronize() returns, messages are processed and written. Task scheduler: tasks are executed, launch() returns. Timers fire at all times of their schedules. Fibers begin, and are resumed from yield(). In every fair execution."
 ],
 "C128": [
  "proved",
  "Queries complete, their waiters are notified, their executions end, and fibers are resumed, in every fair execution."
 ],
 "C129": [
  "partial",
  "For sessions, only if no object is created at an address for which a fiber has not returned (C39_reuse shows that the code does not prevent that), not for responses to HEAD requests (C96_head), and for WebSocket only if no read ends inside a header or inside the first frame of a message (C90_violated_header, C92_violated_header, C15_violated_payload) and compressed messages are in one frame (C15_violated_compressed). For packets and ticks it holds in full."
 ],
 "C130": [
  "proved",
  "for the model of stream sockets, in which EPOLLOUT is assumed to be reported again and again while data are left (the kernel reports it when a send that would have blocked becomes possible)"
 ],
 "C131": [
  "proved",
  "What TCP does with the streams, what epoll_wait() reports and that threads are scheduled fairly is assumed (Model/TcpLink.lean, Spec/LinkLive.lean)."
 ],
 "C132": [
  "partial",
  "Only if no object is created at an address for which a fiber has not returned (C39_reuse shows that the code does not prevent that), and not for responses to HEAD requests (C96_head). That the session gets what the socket tells, and what TCP, epoll_wait() and the scheduler do, is assumed (Spec/EndToEnd.lean, Spec/LinkLive.lean)."
 ]
}