# Formal model of lhmouse/poseidon in Lean 4 — design

## 1. Layout

    lean/Verif/Base/      shared vocabulary (bytes, list lemmas)
    lean/Verif/Model/     model of the code, function by function; every definition cites file:lines of /repo
    lean/Verif/Spec/      small independent specifications (RFC layouts, registries, reference decoders …)
    lean/Verif/Proofs/    helper lemmas and invariants
    lean/Verif/Props/     the property theorems, one file per area, with an `example` beside each theorem
    properties.jsonl      the properties (generated by tools/gen_properties.py)
    MANIFEST.json         property -> theorems
    seeded/LOG.jsonl      mutation log

## 2. Trusted base

* Lean 4.33.0 kernel.
* Axioms: only `propext`, `Classical.choice`, `Quot.sound` (checked per theorem by `vcheck`; a table is in §6).
* The reading of the C++ source: the model is hand-written; no code was run.  Every definition cites its source.
* Contracts of code that is not in /repo (the submodules are empty) are either parameters of the model or written
  as definitions marked "contract": rocket containers (`cow_string`, `linear_buffer`, …) behave like byte lists;
  `std::push_heap/pop_heap` keep the multiset and put a minimal element in front; zlib, OpenSSL, hiredis, libmysql,
  libbson, http_parser, `inet_pton/ntop`, `getaddrinfo`, epoll, the clock and the kernel's socket calls are
  parameters (arbitrary return values within their documented range).
* C++ machine integers are modelled as `Nat`/`Int` where the code cannot overflow (shown beside the definition), and
  as `BitVec`/`UInt`-like modular arithmetic where wrap-around matters (C03, C05, C08, C52 …).
* Concurrency is modelled at the granularity of one atomic operation or one critical section per step, sequentially
  consistent; weak-memory effects are not modelled (the code uses acq_rel/seq_cst atomics and mutexes).

## 3. Undefined behaviour

Where the code can read out of range or underflow a length, the model has a distinct outcome (`Outcome.ub`, or `none`
with a comment) and theorems state the precondition under which it is not reached.

## 4. Properties and plan

| id | what is modelled | how it is proved |
|----|------------------|------------------|
| C01 | UUID print/parse, byte-lane by byte-lane | round trip on 16-byte lists; acceptance characterised by an explicit grammar |
| C02 | UUID::compare | equality with lexicographic order on bytes; order laws |
| C03 | random_v4/v7 bit assembly on BitVec | bit extraction lemmas for all draws |
| C04 | v7 serial state machine | induction over generation history; negation witnesses for wrap and clock step |
| C05 | timespec conversion with 64-bit wrap | arithmetic (`omega`); witness in the excluded window |
| C06 | DateTime print/parse over a proleptic Gregorian calendar | calendar bijection, then field-wise round trip |
| C07 | Appointment as a transition system over lock owners | invariant over histories |
| C08 | WS header encode + parser header step | round trip for all fields |
| C09 | mask_payload incl. head/word/SIMD/tail loops | equality with spec `xor key[i mod 4]`; chunking by composition |
| C10 | parser header step on frame sequences | equivalence with an independent RFC 6455 automaton, induction on sequence |
| C11 | parser fed with partial headers | witness of violation; partial theorem (control frames, single-frame messages) |
| C12 | payload step with limit | invariant and concatenation over chunk lists |
| C13 | PMCE negotiation on parsed header elements | bounds for all inputs |
| C14 | WS session close logic | invariant over event histories |
| C15 | WS session message assembly | witnesses of violation; partial theorems for whole-frame reads, and for reads that end after a header or inside the payload of a continuation or control frame |
| C16 | ws_send/ws_shut_down | layout theorem, round trip with the parser model |
| C17 | query encoder and query parser | round trip by induction over pairs |
| C18 | path encoder and decoder | round trip |
| C19 | decode_and_canonicalize_uri_path loop | refinement to a segment stack; witness for malformed escapes |
| C20 | parse_network_reference | decomposition theorem |
| C21 | HTTP_Value printing and parsing | round trip |
| C22 | HTTP_Field_Name canonicalization | pointwise characterisation |
| C23 | http_response framing | case analysis + arithmetic |
| C24 | chunked output | independent chunked decoder, induction over chunks |
| C25/26/27 | TCP_Socket as a transition system with arbitrary kernel answers | history invariants |
| C28 | on_readable loop with arbitrary consuming callback | witness of violation + partial theorem |
| C29 | `Network_Scheduler` table with probing, rehash, expirations, address reuse | invariant: a search for the address of a stored object finds its slot; load at most one half |
| C30/31 | Network_Scheduler event step | invariants over histories |
| C32 | Timer_Scheduler | transition system, history invariants |
| C33 | Task_Scheduler | transition system, multiset + order invariants |
| C34 | fiber/future wake-up protocol | interleaving transition system, inductive invariant |
| C35 | stack cache | interleaving transition system, ownership invariant |
| C36/37 | Abstract_Future | interleaving transition system; witness for C37 |
| C38 | connection pools | transition system, ownership invariant |
| C39 | easy_* event queues | interleaving transition system, history invariant |
| C40 | IPv6 classify | equality with integer-range specification |
| C41 | IPv6 compare/equals | order laws |
| C42/47 | Redis conversions and printers with explicit stacks | refinement to recursion on trees |
| C43 | MySQL literal printing | round trip with an independent reader |
| C44 | MySQL date-time zone packing | arithmetic; witness for quarter-hour zones |
| C45 | table check planning | convergence theorem on an abstract schema; every clause is needed, and what is not in the structure is left alone |
| C46 | Mongo packing/unpacking with explicit stacks | round trip by refinement to recursion |
| C48/49 | Config_File::query state machine, getters | round trip between rendered paths and lookups |
| C50 | log formatting | invariant on output bytes; equality with a specification of each field, and of what a terminal shows |
| C51 | log queue | history invariant |
| C52 | degrees reduction with 32-bit wrap | arithmetic; witnesses |
| C53 | explode/implode | round trip; witnesses |
| C54 | hex encoder | inverse |
| C55 | splice_buffers | case analysis |
| C56 | read loop | slice theorem for arbitrary short reads |
| C57 | DNS dedupe | list characterisation |
| C58 | scan-and-get | finite-map characterisation |
| C59 | header parser over a grammar of header lists | induction over attributes and elements |
| C60 | header parser on arbitrary text | decreasing measure, fuel independence |
| C61 | both handshake functions end to end | the server's answer parsed by the client model (uses C59) |
| C63 | stream sockets, as C25 | invariant: counted callbacks against the state |
| C62 | IPv6 parse/print | completeness of the reference parser applied to the printed text; `inet_pton`/`inet_ntop` as a contract |
| C64 | fiber scheduler, as C34 | history automaton per fiber, invariant relating it to the scheduler's state |
| C65 | fiber scheduler, as C34 | decreasing measure (room below the waiting fiber's time); witness for a zero warning timeout |
| C66 | fiber scheduler and futures, as C34 | enabledness of the fiber thread; witness |
| C67 | deflator/inflator wrappers and the WebSocket deflator, over zlib as a contract | invariant between the two streams, carried over a sequence of messages |
| C68 | deflator/inflator loops over zlib as a contract | one loop lemma: rounds preserve totals, progress decreases a measure of zlib |
| C69 | UDP receive loop over a script of kernel results, `udp_send` | induction over the script |
| C70 | accept loop over a kernel with a backlog and a number of free descriptors | induction; exact condition for the loop to end; witness |
| C71 | queues of easy UDP sockets and timers, with references to queues and sockets, as a transition system | invariant relating queue, fibers and trace; witness for stop |
| C72 | callbacks of the request parser, called with pieces of text | invariant on the pieces handed over so far; result independent of the cuts |
| C73 | `on_headers_complete` on the collected target and headers, with the network reference parser | soundness and completeness against forms of targets; witnesses |
| C74 | `http_request` with `do_set_request_host`, and encoding | reading the head line by line gives the lines back; then C73 on the target; witness |
| C75 | `HTTP_Server_Session::do_on_tcp_stream` as a loop over the parser model and any library machine, with the derived class as functions of the history | invariant over iterations and reads that relates the phase of the parser to the last call; fuel bound shows that the loop ends; witnesses |
| C76 | the same | simulation: one read of `a ++ b` and reads of `a` and `b` end in states that agree up to the payload calls; induction over pieces; witnesses |
| C77 | the same | one request moves the session from one clean state to the next; induction over requests, then C76 |
| C78 | Model/Geometry: the table as integers of 10⁻¹⁰, reduction modulo 2³² | the kernel checks that a finer table is closed under rotation by one degree up to an error; with bounds of π and of sin and cos near zero this gives the real functions; periodicity extends it to all integers |
| C79 | the same; numbers are rational, infinite or not-a-number, rounding is a parameter with assumed laws | invariant of the binary search; addition theorem of tan and its bounds for the middle of two neighbours; eight octants |
| C80 | the same, with the functions of vectors | error bounds of each operation; an integral angle with a small sine and a positive cosine is a whole number of turns |
| C81 | `quote_json_string()` and the texts of all leaf values; `utf8_decode()` as a parameter with a contract | a JSON reader in the specification, which reads back what is printed: mutual induction over values; base64 blocks of 48 bytes joined to one |
| C82 | `HTTP_Response_Parser`, with the library's state machine as a parameter | induction over pieces with an invariant on the size of the head; contexts for regrouping |
| C83 | `HTTP_Client_Session::do_on_tcp_stream()` with any library of the shape of `ReplyLib` and any derived class | an invariant that links the state of the parser with an automaton of calls; each iteration consumes input |
| C84 | the same | one long read is simulated by two shorter ones; induction over the pieces |
| C85 | the same, for classes that may consume payloads early | one response moves the session from one clean state to the next; a simulation between any such class and one that consumes nothing |
| C86 | the split of a service URI (Connection), on top of C08's parser | both directions: texts and their parts against the parser's result |
| C87 | Redis connections with the server as an arbitrary function of what it has seen | an invariant of all histories: failed logins, one login, commands |
| C88 | MySQL statements, with pointers into buffers that move when they grow; rows, and the second fetch of long columns | the loop keeps all pointers valid; blobs of any length are whole; an invariant of all histories |
| C89 | the three query futures; cursors of MongoDB | induction on the rows or documents that remain |
| C90 | `WS_Server_Session` as a class over the model of HTTP server sessions, with the models of the handshake and of frames | a class that switches at the headers: `ack` of the HTTP session is a function of the calls; an invariant over the calls; composition of C76/C77, the handshake and C15, for reads of whole frames and for those that end inside frames |
| C91 | the same, with the closure of the socket, and what arrives after exceptions | the same invariant |
| C92 | `WS_Client_Session` over `HTTP_Client_Session`; the session is a function of the calls from below (`Model/WsClient.lean`) | the response in pieces goes through the loop of the HTTP session, then induction over reads of frames, whole ones or those that `MayEnd` of `Spec/WsCut.lean` allows; three situations as invariant over all histories; the handshakes of both sides against the same specification |
| C93 | the same, with the closure of the socket, and what arrives after exceptions | the same invariant |
| C94 | the network thread with the states of sessions and what they have yet to push, around the table of sessions and the fibers of C39 (`Model/EasyNet.lean`); sessions of streams (`Model/EasyStream.lean`) | what has been pushed and what is left to push is what the session makes of its input; what has been noted is a prefix of that, and all of it while the session is in the table; with C39 |
| C95 | `HTTP_Server_Session` as such a session (`Model/EasyHttp.lean`) | what it pushes is a function of the calls of the HTTP session (C77), whose state after good requests is known; the default class does the same as one that takes all requests unless there is a request to a proxy |
| C96 | `HTTP_Client_Session` as such a session | the same, with C85 |
| C97 | system calls of `do_write_pid_file()` by any number of processes, with `flock()` as in its manual (`Model/PidFile.lean`) | invariants of states and locks over all interleavings; two counterexamples |
| C98 | `main()` up to the scheduling of fibers: `getopt()` of GNU, three processes of a daemon, modules (`Model/Startup.lean`); what the parts do is given by an environment | induction on arguments, parts and modules; the plan of the usage message is the specification |
| C99 | `reload()` of connectors, schedulers and the logger, `do_load_modules()`, over parsed configuration files (`Model/Reload.lean`) | case analysis on entries against a specification of entries with types, ranges and defaults; a counterexample for the logger |
| C100 | `DNS_Connect_Task`, with resolver and `connect()` as an environment (`Model/DnsConnect.lean`) | induction on addresses; a counterexample for the notification |
| C101 | `Final_Session` of `Easy_WS_Server` on top of the sessions of C90 and the threads of C94 (`Model/EasyWs.lean`) | events are a function of the history of the session; the invariants of C90 and C91 hold at any time, also after exceptions |
| C102 | `Final_Session` of `Easy_WS_Client` on top of the sessions of C92 and the threads of C94 (`Model/EasyWs.lean`) | likewise |
| C103 | `Final_Session` of `Easy_HWS_Server` on top of the sessions of C90 and the threads of C94 (`Model/EasyHws.lean`) | likewise; runs of the HTTP session with classes that answer alike on a trace are the same, so that C77 applies to plain requests |
| C104 | the mutexes of the library and the sequences of lock operations of its functions (`Model/Locks.lean`) | mutexes are ranked; all threads but the network thread lock in order of rank; the network thread, whose callbacks run with a socket locked, is alone in locking a socket while epoll is locked; by induction on ranks, a blocked thread leads to the network thread, and this to a contradiction; then runs are finite |
| C105 | `local_address()` and `remote_address()` of any number of threads, byte by byte (`Model/Address.lean`) | invariant: all bytes that are written are those of the address, the flag implies that all have been written, and where each thread is says what it has seen; a race is shown by a schedule |
| C106 | `join_multicast_group()` and `leave_multicast_group()`, and what the kernel knows about groups (`Model/Multicast.lean`) | induction on the history of calls, from its end |
| C107 | `ws_send()` and `ws_shut_down()` called by many threads, with the mutex of the compressor (`Model/WsPeers.lean`), received by the session of `Model/WsSession.lean` with the decompressor of `Model/Zlib.lean` | an invariant of all interleavings: the frames on the wire take the decompressor to a state that agrees with the compressor, unless a compressed frame has been lost, after which none is accepted; induction on frames and reads for the receiver |
| C108 | the arrays of the timer and the fiber scheduler, with `push_heap`, `pop_heap` and `make_heap` as relations that leave their results open (`Model/Heap.lean`, `Model/TimerHeap.lean`, `Model/FiberHeap.lean`), and the sleep of the timer thread | invariants: the array is a heap, the timeout is the least time; a refinement of `Model/Timer.lean`, from which schedules follow; another invariant of runs in which only sleep takes time |
| C109 | the texts of the statements (`Model/SqlText.lean`) | a reader of SQL tokens in the specification; a predicate "this text has these tokens" that is closed under concatenation at separators, then induction over columns, indexes and clauses |
| C110 | `connect()` of easy clients, the names that HTTPS sessions tell OpenSSL, the first request of WebSocket clients (`Model/EasyConnect.lean`) | from C20, C74 and C100: the parts of the address are followed to the resolver, the `Host` header and the name that is verified; counterexamples for IPv6 addresses and SSL clients |
| C111 | signal handlers, the loop in `main()` and `do_exit_printf()`, composed with the models of the queue of fibers, the logger and the PID file (`Model/Shutdown.lean`); signals at any moment, in any thread | invariants of the composition; a rank for the steps that are left; C51 and C108 for the components |
| C112 | what client and server sessions send (`Model/HttpExchange.lean`), composed with the parsers and the sessions that receive (C77, C85) | the bytes of each request and response are a valid message of RFC 9112; http-parser is assumed to read these (`ReadsRequests`, `ReadsReplies`; a small reader which is proved to meet both is in `Proofs/HttpLineLib.lean`); then by the delivery theorems of both sessions |
| C113 | two models of C94, one of a server and one of a client, whose sockets get what the other side has sent | C112 for the bytes, C95 and C96 for both sides; the answers are a function of the requests which the callback of the server has been called for |
| C114 | the text of the answer to a handshake (`Model/WsExchange.lean`), the request of C110, the sending threads of C107, and models of C101 and C102 whose sockets get what the other end has sent | the request and the answer are valid messages, which any library that reads such messages hands over as they are; C61 with all parameters for the agreement; the frames of C107 are `Readable` items for C101 and C102, for any inflator that undoes the deflator |
| C115 | the fields and flags of `HTTP_Value` and all functions that write them (`Model/HttpStore.lean`); conversions between numbers, and what a failed date parse leaves behind, are parameters | each function forgets the state before it, but for the fields that assigning a text does not write; what flags say is the value of `Model/HttpValue.lean`, so C21 gives the meaning of texts |
| C116 | stream sockets, as C25 | invariant: before the opening has been told, the state is pending and the network thread has not got to reading; with C31 and C63 this gives the form of what is told, which is what the models of sessions (`Model/EasyNet.lean`) presuppose |
| C117 | two stream sockets and the two streams between them (`Model/TcpLink.lean`); what TCP does with the streams is assumed there | invariant: what has been received and what is on its way is what the kernel has taken; with C25, C26, C28, C116 and C94 |
| C118 | any number of easy UDP objects with their sockets, and a network that loses, repeats and reorders packets but does not change them (`Model/UdpLink.lean`) | invariant: what has been brought to a socket is what the object has been handed, and what waits in the kernel; with C69, C71 |
| C119 | any number of easy timers with the queue of the timer scheduler and the timer thread (`Model/EasyTimer.lean`) | invariant: the ticks of each insertion are what its queue has been handed, and what the timer thread is handing over; with C32, C71, C108 |
| C120 | ValueDrop: the destructors of MongoDB and Redis values as a machine over a heap of counted containers | invariant: counts are the numbers of references; a measure for termination; a bound on frames where one thread destroys, and a family of schedules that breaks it for two |
| C121 | the session of `Model/WsSession.lean` with all its inputs (reads, sends of other threads, failures, closure) | an invariant of the parser (a control payload is at most 125 bytes) and a grammar of what one read adds to the trace; with C15, the PONGs and PINGs correspond one by one; witnesses for the CLOSE frame that is not answered and the status that is not told |
| C122 | `http_shut_down()` (`Model/HttpPage.lean`) behind the responses of `Model/HttpExchange.lean`, received by the client session of C85 | the page is a response of RFC 9112 that ends with the connection; http-parser is assumed to read these (`ReadsRepliesToEnd`; the small reader of `Proofs/HttpLineLib.lean` meets it); witnesses for HEAD, 204 and 304 |
| C123 | `Model/DbAsk.lean`: the scheduler and futures of C34-C37, the pool of C38 and the connections of C87-C89 in one transition system; query futures are executed step by step by any number of threads, beside other users of connections and reloads | an invariant that relates the phase of each query, the flags of its future, the pool's and the real state of its connection, and what servers have seen; one set of laws per driver; witnesses for the silent failure and the stale password |
| C124 | `do_push_log_message()` and `do_create_runtime_error()` (`Model/ErrorText.lean`); what libunwind says about the stack is a parameter | induction on the stack with an invariant of the buffer for numbers; uniqueness of what is left of a message; C50 for the entry |
| C125 | the last part of `do_write_nothrow()`, and groups of messages (`Model/LogFiles.lean`); the operating system decides about each `open()` and `write()` | invariant of the dictionary of files, by induction on files and messages; C50 for lines; a counterexample |
| C126 | the logger with its threads, locks and configurations (C51), entries (C50) and files (C125) put together (`Model/LogAll.lean`) | refinement to `Model/Logger.lean`; invariants: which configurations threads hold, and that histories of files are what is expected of the messages written so far |
| C127 | infinite executions of `Model/Logger.lean`, `Model/Task.lean`, `Model/Timer.lean` and `Model/Fiber.lean` with strong fairness (`Spec/Live.lean`); that the threads go on is what is assumed, in `Spec/LoggerLive.lean`, `Spec/TaskLive.lean`, `Spec/TimerLive.lean` and `Spec/FiberLive.lean` | rules for "leads to" with measures (`Proofs/Live.lean`); an execution with a measure of how many elements are before the one of interest |
| C128 | infinite executions of `Model/DbAsk.lean`; that threads which execute queries go on is what is assumed, in `Spec/DbLive.lean` | an invariant shows that a thread which executes a query can always take its next step; the steps that remain are a measure; the execution of fibers by itself is one of C127 |
| C129 | infinite executions of `Model/EasyQueue.lean`, `Model/Easy.lean` and `Model/EasyNet.lean`; what is assumed is in `Spec/EasyLive.lean` | while something is in a queue there is a fiber for it (C71, C39), and how far it is from the next call is a measure; what is assumed makes it smaller again and again; then by induction on what is in the queue. For streams and HTTP, by C94, C95 and C96; for WebSocket, by what C101, C102 and C103 say about sessions that have not been closed |
| C130 | infinite executions of `Model/Socket.lean`; what is assumed is in `Spec/SocketLive.lean`; events are edge-triggered there, so code that stops writing before it is told `EAGAIN` would be stuck | a weight of what is on the stack of a thread, together with what is queued, becomes smaller with every step of the thread that has the mutex, so that it gives it up; then other threads get it. The network thread tries to send as long as something is queued, so that what is left becomes less whenever the kernel takes something: whenever something is queued, a report is owed by the system, or is in the buffer, or is being processed and the network thread has not tried yet (`sl_K`). That something is queued, or the network thread is about to shut down, whenever the state is "closing", is an invariant |
| C131 | infinite executions of `Model/TcpLink.lean`; what is assumed is in `Spec/LinkLive.lean`; events are edge-triggered | each end of an execution of the link is an execution of a socket, so C130 gives that the kernel takes everything. As long as less has been received, something is on its way (invariant of C117); then `epoll_wait()` reports it, the network thread gets to its read loop before the event has been processed, and what it reads makes the rest smaller. After a shutdown the number of bytes that can be read is fixed, so the end is read after them |
| C132 | infinite executions of `Model/TcpLink.lean` and of `Model/EasyNet.lean`, where what the socket at one end tells is what happens to a session (`Spec/EndToEnd.lean`) | C131 with C129; for HTTP, the bytes told are all that is sent and, by an invariant of the link (C117_last), nothing comes behind the end of the stream, so that the theorems about good requests and responses apply |

## 5. Discrepancies found in the code

(kept current as proofs proceed; each has a machine-checked witness)

* **C01** The `UUID` string constructor accepts the empty text (`C01_constructor_accepts_empty`); `print` writes lower-case
  letters although the header documents upper case.
* **C04** Version 7 UUIDs are not always increasing: serial wrap (`C04_v7_wraps`) and clock step back (`C04_v7_clock_back`).
* **C05** Times in the lowest 854.8 ms of the 64-bit range convert to another time (`C05_low_window_wrong`).
* **C19** A malformed percent escape stops the path decoder before its last canonicalization, so `"/a/..%"` decodes to
  `"/a/.."` (`C19_trailing_dots_survive`).
* **C20** A rejected network reference may leave a changed host and IPv6 flag behind (`C20_failure_changes_host`).
* **C52** The lowest `int` values are reduced to angles that are not congruent (`C52_lowest_wrong`).
* **C53** `explode` takes the whole text as the first segment when it starts with a delimiter
  (`C53_leading_delimiter_wrong`), and underflows a length or fails an assertion on blank pieces
  (`C53_blank_piece_wrong`).
* **C11** A WebSocket frame header that arrives incomplete has already changed the message state: a frame which starts
  or ends a fragmented message is rejected if its header is cut anywhere after the second byte (`C11_violated`).
* **C15** A text or binary frame whose payload arrives in more than one read loses everything but the last part
  (`C15_violated_payload`; `C15_violated_cut` proves it of every uncompressed message in one frame, wherever its
  payload is cut): the message buffer is cleared for every piece, not once per frame. A header cut by a read
  boundary is lost with the read buffer (`C15_violated_header`). The second frame of a compressed message is preceded
  by the compressed bytes of the first (`C15_violated_compressed`). Also, a received CLOSE frame is not answered with
  a CLOSE frame.
* **C17** An empty list of query parameters encodes to the empty string, from which the query parser reports one
  element with an empty name (`C17_violated`).
* **C21** Texts that look like numbers are printed as numbers: the header value `007` is written as `7`
  (`C21_violated`).
* **C23** A `Content-Length` among the user's headers is written in addition to the generated one
  (`C23_violated_duplicate`), and line breaks in header values are written raw, so that a value can end the header
  section (`C23_violated_break`).
* **C61** A WebSocket client whose compression level is configured as 0 still offers permessage-deflate and then
  ignores the acceptance: the server sends compressed frames that the client rejects (`C61_violated`).
* **C62** The constructor `IPv6_Address(str)` does not throw for the empty text: `parse` returns 0, which equals its
  length; the address is all zeros (`C62_constructor_accepts_empty`).
* **C26** `tcp_send` tests the state before it takes the lock (tcp_socket.cpp:183-187), so a call in progress while
  another thread shuts the connection down returns `true`, but its data is queued and never sent
  (`C26_race_loses_data`).
* **C28** The receive buffer is cleared before each read (tcp_socket.cpp:48, ssl_socket.cpp:77), so bytes that the
  stream callback leaves in its buffer are lost (`C28_bytes_lost`).
* **C29** An event that is still in `m_event_buf` when its socket is destroyed is delivered to whatever socket has
  been registered at the same address by then (network_scheduler.cpp:255-260, `C29_stale_event`).
* **C33** Within a batch tasks run last in, first out (`C33_last_in_first_out`). `thread_loop` waits for the mutex of
  the task while it holds the mutex of the queue (task_scheduler.cpp:37), so a task that is launched again while it
  runs, and then launches another task, blocks all threads (`C33_deadlock`).
* **C37** `check_success()` (abstract_future.hpp:76-82) throws only if the future has not completed; a failed future
  is treated as successful, contrary to its documentation. Witnesses `C37_not_rethrown`, `C37_yield_ignores_failure`.
* **C65** With `fiber.warn_timeout = 0`, which the configuration permits, a fiber that waits for a future keeps its
  check time, stays first in the heap and is polled in a busy loop; fibers launched later do not run until the future
  completes or the fail timeout passes. Witness `C65_starved`.
* **C66** The initializer of a future runs with `m_init_mutex` locked (abstract_future.cpp:30-49); `yield()` on that
  future locks the same mutex on the fiber thread (fiber_scheduler.cpp:215), so all fibers are blocked until the
  initializer exits. Witness `C66_blocked`.
* **C06** A date after 2262-04-11, e.g. the cookie idiom `Fri, 31 Dec 9999 23:59:59 GMT`, parses with a signed
  overflow (`system_clock::from_time_t()` on a nanosecond clock): C06_overflow. The clamp to 9999 is therefore
  unreachable.
* **C06** RFC 850 dates before 1969 and after 2068 come back in another century, and are not recognized when text
  follows: C06_rfc850_century, C06_rfc850_trailing.
* **C06** The Git format loses the seconds of a zone offset: C06_git_seconds.
* **C06** The least representable times print as times in 2262, because `timespec_from_system_time()` wraps:
  C06_lowest.
* **C06** `DateTime(\"\")` does not throw, and `parse()` reads characters after the end of the string it is given:
  C06_empty, C06_reads_past_end.
* **C46** `Mongo_Connection::fetch_reply()` (mongo_connection.cpp 456-463, 486-493) saves the nested value itself as
  the `parent` of a frame. When the nested container is complete, decoding resumes with the iterator of the enclosing
  one but stores into the nested one. `{a:[1], b:2}` is received as `{a:[1,2]}` (`C46_misplaced`); a document whose
  first element is a nonempty container is always received with one element (`C46_one_element`).
* **C46** A BSON date-time outside the range of 64-bit nanoseconds (after the year 2262, such as the customary
  9999-12-31) overflows a signed addition in `fetch_reply()` (`C46_overflow`).
* **C56** A read limit of 2^63 or more is converted to a negative remaining count, so the read throws rather than
  reading up to the end of the file (`C56_limit_fails`).
* **C58** The scan-and-get task erases from the map while it iterates by index; this is right only if the map does not
  move elements on erasure (`C58_relocation`). A map with linear probing loses none on erasure (`C58_probing`), so the
  fault is in the loop.
* **C44** For zone offsets that are not multiples of 30 minutes (Nepal, Chatham, historical local mean times), a
  date-time that is bound and read back is later by the remainder (`C44_offset`); date-times stored without the
  encoded offset are converted with `timelocal()` on a `struct tm` whose `tm_isdst` has not been initialized
  (`C44_uninitialized`, mysql_connection.cpp 271, 342-353).
* **C45** The table check never converges for an index named `PRIMARY` of the non-unique type (`C45_primary_multi`),
  for a nullable column in the primary key (`C45_primary_nullable`), for a NaN default (`C45_nan`), for boolean
  columns on servers that report display widths, where `tinyint` is `tinyint(4)` and not `tinyint(1)`
  (`C45_display_width`), and issues a statement that the server rejects when the name of the primary key or of a
  column differs in case (`C45_primary_case`, `C45_column_case`).
* **C38** A connection pool may exceed its configured size after the size has been made smaller, until the next
  connection is given back (`C38_shrink`). A connection that has been idle for longer than the timeout is given out,
  since the search precedes the check for the timeout (`C38_expired`). Passwords are not compared: a connection
  authenticated by one user of the API is given to another who has specified a wrong password (`C38_password`).
  `Redis_Connection::reset()` does not reset the session on the server, so a selected database or an open transaction
  is inherited by the next owner (`C38_redis_session`).
* **C39** Easy servers and clients identify a session in a fiber by the address of its object only. After the closure
  callback the fiber drops its reference, the object is destroyed, and the fiber looks the address up again; if
  another session has been created at the same address meanwhile, the fiber goes on with it, and two fibers may be in
  callbacks of one session (`C39_reuse`). Moreover `do_on_http_request_error()` (easy_http_server.cpp:193-202) leaves
  the type of the event uninitialized; if it equals that of a closure notification, the session is forgotten and the
  user is never told (`C39_error_type`). If `push_back()` throws, the queue is erased although a callback may be using
  its stream (`C39_dangling`).
* **C70** On `EMFILE` (and any error other than `EAGAIN`) `accept4()` is retried at once (tcp_acceptor.cpp:64-78);
  Linux allocates the descriptor before it looks at the backlog, so the network thread, of which there is one, loops
  until another thread closes a descriptor. Theorem `C70_endless`.
* **C71** A packet that is being received keeps the queue alive, so a callback that has called `stop()` may be called
  again with packets that were pending (easy_udp_server.cpp:48-57, 98-106; easy_timer.cpp likewise). Witness
  `C71_after_stop`.
* **C73** a request for a path is rejected when `://` occurs anywhere in it, for example `/login?next=http://b/`
  (`C73_url_in_query`): `on_headers_complete` takes every target in which `://` is found for an absolute URI, whatever
  its first character is.
* **C73** in the target `http://good?x=y@bad` the host is `good`, but the server takes `bad` (`C73_at_in_query`): the
  end of the userinfo is searched for among `@` and `/` only, not `?` and `#`. Something in front of the server that
  checks the host can be misled.
* **C74** an IPv6 address loses its brackets when a target is parsed, and does not get them back when a request is
  sent (`C74_ipv6`), so a proxy that passes a request on to another sends a target that is rejected.
* **C75** after the error for a request without a host the session goes on: the payload of the request, if it comes
  later, is passed to the derived class together with the end of the request (`C75_no_host`). If everything comes in
  one piece, the rest of it is thrown away instead, so the outcome depends on how the network cuts the stream.
* **C75** the default class rejects a request to a proxy with status 403, but does not stop it: the end of the request
  is reported as well (`C75_proxy`), so an easy HTTP server hands the request to the user after the error.
* **C76** if a response with status 101 is sent while the headers of a request with a payload are being handled, the
  payload is parsed if it came in the same piece, and passed to the new protocol otherwise (`C76_switch`).
* **C76** pausing the library within `on_headers_complete` leaves the line feed that ended the head in the buffer
  (assumed contract of http-parser), so a tunnel made by `http_payload_connect` starts with that line feed
  (`C76_tunnel`).
* **C78** degrees::reduce360(), sin(), cos() and tan() add 2147483160 to the angle as an unsigned integer; for angles
  below −2147483160 the sum is below 2³² where it should have wrapped, so they are taken for others (2³² is not a
  multiple of 360). The same goes for reduce180() below −2147483339. (C78_least_violated, C78_least_sine_violated)
* **C79** vector2::direction() compares the distances of tangents, not of angles, so near half degrees it does not
  give the nearest degree (C79_nearest_violated); vectors a little below the positive x axis give 360, not 0
  (C79_360_violated); vectors with two infinite elements fail an assertion, as the quotient is not a number
  (C79_infinite_violated). When the compiler knows the vector, atan2f() is used instead, which gives negative angles
  below the axis and truncates; that path is not modelled.
* **C81** `quote_json_string()` (utils.cpp:230-234) copies the `0x` prefix that `put_XU()` writes into escape
  sequences (`\u0x00`), so each string with a control character without a short escape, a delete character or any
  non-ASCII character is printed as something that is not JSON, and the character is lost; `nump.data() + 2` is meant,
  as in http_client_session.cpp:230. For code points in the basic plane it also reads an indeterminate `ustr[1]`.
  `C81_escape_violated`.
* **C82** The callback for the reason phrase (http_response_parser.cpp:22-28) is the only one without a check of
  `max_http_header_length`; the check in the callbacks for headers covers the reason, but is not reached when a
  response has no headers. A server can make a client store a reason of any length (`C82_reason_unlimited`).
* **C83** At the end of the stream, the library is called with no data (http_response_parser.cpp:162-164, 187-189). If
  a payload ends there, published versions of http-parser (2.9) report the end of the message and stay in the same
  state; `next_message()` does not reset the library, so the loop in `do_on_tcp_stream()` is told again and again that
  a message without headers has ended, and never returns (`C83_hang`). This depends on the library, which is not in
  this checkout.
* **C84** As for C76, the parser is paused before the line break that ends the head is consumed, and a client that has
  requested a tunnel gets this byte as the first one from the tunnel (`C84_tunnel`).
* **C88** an unsigned BIGINT greater than 2^63-1 is fetched as a negative integer: the buffer is signed, and the
  truncation flag is not looked at (mysql_connection.cpp:283-291, 327-335). Witness: C88_unsigned.
* **C90** A failed handshake (status 400 or 426, or the error for a request without a host) reports the close, but
  leaves the parser waiting for a handshake. If a correct handshake follows in the stream, it is answered with status
  101 and `do_on_ws_accepted()` is called after `do_on_ws_close()`; the messages behind it are dropped without notice
  (`C90_violated`).
* **C90** The handshake is completed at the headers of the request; if the request has a payload which comes in a
  later read, the payload is taken for frames, and whether it is depends on how TCP has cut the stream
  (`C90_violated_payload`).
* **C90**, **C92** The bytes that a read leaves in the buffer are gone at the next one (C28), but sessions leave an
  incomplete header of a frame there. So a frame whose header is divided between two reads is misread, by servers
  (`C90_violated_header`) and clients (`C92_violated_header`): the rest of the header is taken for another header.
* **C92** WS_Client_Session takes every response for the answer to its handshake. A response before the one that
  switches (an interim one such as 103 too) makes it report a close with status 1002; as the connection stays open
  until the peer closes it, a following response with status 101 is then reported as a connection after its close, and
  its messages are dropped (`C92_violated`). The status code is never looked at: a response with status 200 and the
  right headers is reported as a connection, although the HTTP session does not switch, so frames are parsed as HTTP
  (`C92_violated_status`).
* **C75, C83** An exception for a limit of headers or payloads leaves `do_on_tcp_stream()` in the middle of a message.
  The socket is shut down, but data that had been received before are still read (tcp_socket.cpp:73-83), the parser
  goes on behind the piece that was too long, and so a request or a response can be delivered to the application with
  a hole in its payload (`C75_limit`, `C83_limit`).
* **C96** `Easy_HTTP_Client` does not override `do_on_http_response_headers()`, whose default result is
  `http_payload_normal`, and its callback cannot tell what the request was.  So the response to a HEAD request is
  taken to have a payload: bytes of the following responses are delivered as its payload (`C96_head`), or the response
  is not delivered at all.  (easy_http_client.cpp:105-191, http_client_session.cpp:116-125)
* **C97** `do_write_pid_file()` calls `creat()`, which makes the file empty, before `flock()`. If the program is
  started a second time by mistake, the second process ends with an error, but the PID file of the first one, which
  goes on running, is empty from then on (`C97_emptied`). The change from an exclusive to a shared lock is not atomic
  (flock(2)): a second process that tries to lock the file at this moment succeeds, and both run (`C97_two`).
* **C99** `Logger::reload()` sets the bits that `enabled()` tests to all ones before it reads the configuration
  (logger.cpp:230). If the file is then rejected, `enabled()` is true for all levels from then on, although the old
  configuration is kept.
* **C100** `DNS_Connect_Task` registers the socket only if `connect()` has succeeded or is in progress. Otherwise it
  shuts the socket down, which nobody watches, so that no closure is reported, although a comment there says that it
  is. The callback of an easy client is never called, and its session stays in the table of the client.
* **C103** easy_hws_server.cpp: a handshake and an OPTIONS request are answered by the network thread, but plain
  requests by the callback, in a fiber. If a client sends a plain request and then, without waiting, a handshake, then
  status 101 is sent before the callback has been called for the plain request, and its response can no longer be sent
  (`C103_violated`); after OPTIONS, responses are exchanged.
* **C104** ws_server_session.cpp:298-316 (also ws_client_session.cpp, wss_*): `ws_send()` keeps `m_def_mtx` of the
  deflator locked while it locks `m_sched_mutex` of the socket in order to send; callbacks run in the network thread
  with `m_sched_mutex` locked. If a callback sends a compressed message (say, an echo server with messages of 64 bytes
  or more) while another thread sends one on the same session, both block forever, and with the network thread so does
  every socket (`C104_violated_compression`), although `ws_send()` is documented to be thread-safe.
* **C104** task_scheduler.cpp:36-39: `thread_loop()` locks `m_sched_mutex` of the task with `m_queue_mutex` locked; if
  the task has been launched twice and is executing in another thread, which calls `launch()`, both block forever, and
  so does everyone else who launches a task (`C104_violated_task`; see also C65).
* **C105** Threads that call `local_address()` or `remote_address()` for the first time at the same time all write
  `m_sockname` or `m_peername`, which are not atomic, and a thread for which the flag has been set may read them while
  another one writes. All of them write the same bytes, so results are right on actual machines, but the behaviour is
  undefined (abstract_socket.cpp:103-107, 129-133).
* **C107** `ws_send()` sends the compressed form of a message even if it is longer than the message. A receiver checks
  the length of frames against its limit before it decompresses them, so an incompressible message that is just within
  the limit throws an exception there and is lost, while it would have been received if it had been sent as is.
  (`C107_violated_limit`, with a compressor that is worse than zlib; zlib adds a few bytes.)
* **C109** Backticks in names of tables, columns and indexes are not doubled when statements are composed
  (mysql_check_table_future.cpp:16, 82, 99, 182, 277, 508, 566), so that a name may end one clause and begin another
  (`C109_violated`).
* **C110** `connect()` of easy clients for HTTPS and WSS passes `host:port` without the brackets of an IPv6 address to
  the session (easy_https_client.cpp:229, easy_wss_client.cpp:243). So the `Host` header is wrong, and the constructor
  of the session cannot parse it (https_client_session.cpp:14-21): then `SSL_set1_host()` is not called, or is called
  with the digits in front of the first colon. In the former case, a certificate of a trusted authority for any other
  host is accepted (`C110_violated_ipv6`, `C110_violated_ipv6_anyone`). The same happens for hosts of more than 253
  characters (`C110_violated_long`). SSL clients never verify the name, and have no function for it
  (`C110_violated_ssl`).
* **C110** `connect()` of easy clients for HTTP and WebSocket accepts fragments, which are documented as not allowed,
  and an empty address, because 0 characters of it are parsed as expected (`C110_violated_fragment`,
  `C110_violated_empty`); the failure of the latter is silent, see C100.
* **C112** `http_chunked_response_start()` with a header `Connection: close` calls `tcp_shut_down()` right behind the
  head, so what `http_chunked_response_send()` and `http_chunked_response_finish()` are called with later is dropped:
  the client gets the head of a response in chunks and then the end of the stream. (http_server_session.cpp:161-190;
  `C112_chunked_close`)
* **C115** Assigning a text to an `HTTP_Value` writes `m_int`, `m_dbl` and `m_dt` only if the text can be parsed as
  such (http_value.cpp:90-112), so `v = 42; v = "abc";` leaves `v.as_integer() == 42`, although the comment in
  http_value.hpp says that the fields are always synchronized. And `parse_datetime_partial()` sets only `vm_dt_valid`
  (http_value.cpp:161), so a date in a header is a value with `is_null() == true`. Witnesses: `C115_stale`,
  `C115_null_date`.
* **C116** The callback `do_on_tcp_connected()` is called only if the socket is still pending when it becomes
  writeable (tcp_socket.cpp:98-107, ssl_socket.cpp:137-146). If `tcp_send()` and then `tcp_shut_down()` are called
  before the connection is open, the state is `closing` by then; the data are sent, and what the peer answers is given
  to `do_on_tcp_stream()`, although the user has never been told about the opening. Witness: `C116_no_opening`.
* **C120** The destructors of MongoDB and Redis values unpack a container into a flat list only if `unique()` says
  that no one else refers to it. When two threads destroy values that share parts, one may see a shared container, the
  other one release its reference, and then the first one destroys the container, whose elements are destroyed
  recursively; for every depth there is a schedule that recurses that deep (C120_recursion). With one thread at a time
  the depth is at most two.
* **C121** A CLOSE frame from the other end is never answered (ws_server_session.cpp:167-178, and the same in the
  client and SSL sessions): `do_on_ws_close()` is called directly, not through `do_call_on_ws_close_once()`, and
  `ws_shut_down()` is not called. RFC 6455, 5.5.1, demands a CLOSE frame in reply. Unless the callback of the user
  calls `ws_shut_down()`, the connection stays open, and later input is ignored. (`C121_violated_close`)
* **C121** After a protocol error, the CLOSE frame that is sent says 1000 (normal closure), because
  `do_call_on_ws_close_once(status, reason)` calls `ws_shut_down(ws_status_normal, "")` whatever the status is
  (ws_server_session.cpp:20-31); the other end does not learn of the error. (`C121_violated_status`)
* **C122** `http_shut_down(status)` always sends its default page (http_server_session.cpp:282-318), also for the
  statuses 204 and 304 and as the answer to a HEAD request, where a response has no payload. The page is taken for the
  beginning of another response, and the client session reports an error after the response. (`C122_violated_status`,
  `C122_violated_head`)
* **C123** A query to which the server replies with an error: the fiber goes on normally, `check_success()` returns
  normally (C37), and the result is empty (redis_query_future.cpp:35-46, abstract_future.hpp:76-82). (`C123_silent`)
* **C123** A connection whose login failed has never been open, so `reset()` returns true and it goes to the pool.
  `allocate_default_connection()` looks for pooled connections by URI only (redis_connector.cpp:60-81), so after the
  password in the configuration has been corrected, queries still get that connection with the old password, fail, and
  give it back. (`C123_stale_password`)
* **C125** `do_write_nothrow()` ignores how many bytes `write()` has accepted (logger.cpp:195-196). If these are not
  all, for example because the disk is full, the rest of the entry is never written, and the next entry follows on the
  same line (`C125_torn`).

## 6. Axioms per theorem

Generated by `tools/gen_axioms.py` from `#print axioms`; names are in the namespace `Verif.Props`.

* **no axioms** (15 theorems): 
  C100_silent, C110_violated_fragment, C115_cleared, C115_date, C115_double, C115_integer, C115_null_date, C115_swap,
  C20_failure_changes_host, C27_order, C44_lowest, C55_splice_self, C56_error, C62_constructor_accepts_empty,
  C62_constructor_rejects_partial

* **`propext`** (68 theorems): 
  C01_constructor_accepts_empty, C06_empty, C06_git_seconds, C06_lowest, C06_overflow, C06_reads_past_end,
  C06_rfc850_century, C06_rfc850_trailing, C07_not_smallest, C100_gone, C100_outcome_partial, C105_violated_race,
  C105_violated_read, C109_show_partial, C110_violated_empty, C110_violated_ipv6_anyone, C110_violated_ssl,
  C115_all_partial, C115_not_null_partial, C115_parsed, C115_stale, C115_text, C115_token, C115_unquoted,
  C116_no_opening, C125_torn, C17_violated, C19_trailing_dots_survive, C21_date, C21_integer, C21_meaning,
  C23_violated_break, C23_violated_duplicate, C26_race_loses_data, C28_bytes_lost, C39_dangling, C39_reuse,
  C40_covered, C42_status, C45_column_case, C45_display_width, C45_nan, C45_primary_case, C45_type_error,
  C46_misplaced, C46_overflow, C50_verbatim, C53_implode, C55_splice, C58_failure, C58_relocation, C58_short,
  C69_returns, C71_after_stop, C78_least_sine_violated, C78_least_violated, C83_limit, C87_fetch, C87_fetch_once,
  C87_null, C88_few, C88_malformed, C89_mongo_error, C89_mongo_stale, C89_mysql_none, C89_redis_error, C99_enabled,
  C99_whole

* **`Quot.sound`, `propext`** (211 theorems): 
  C01_print_form, C04_v7_clock_back, C05_low_window_wrong, C06_clamped, C06_texts, C07_available, C07_distinct,
  C07_free, C07_index, C07_smallest, C07_terminates, C07_withdraw, C08_layout, C09_unmasked, C103_violated,
  C104_violated_compression, C104_violated_task, C105_portless, C106_groups, C106_join, C106_leave, C106_options,
  C107_violated_limit, C109_violated, C10_handshake, C112_chunked_close, C114_answer, C115_quoted, C116_data,
  C117_back, C121_violated_close, C121_violated_status, C122_last, C123_silent, C123_stale_password, C124_message,
  C125_only, C126_closed, C13_client, C13_server, C14_at_most_once, C15_violated_compressed, C15_violated_header,
  C15_violated_payload, C17_all, C17_error, C17_partial, C18_encode_decode, C18_roundtrip, C19_canonical,
  C19_malformed_partial, C19_no_dots, C20_complete, C20_parts, C20_reject, C21_token_partial, C21_violated, C22_case,
  C22_compare, C23_partial, C24_decodes, C24_only, C24_start, C25_output, C26_refused_partial, C26_state,
  C27_monotone, C28_all_shown, C28_buffer_partial, C28_kept_partial, C31_last, C31_once, C31_unregistered,
  C32_inserted, C32_not_lost, C32_released, C32_schedule, C33_batches, C33_deadlock, C33_last_in_first_out,
  C33_launched, C33_not_concurrent, C33_progress, C33_skipped, C34_due, C34_not_early, C34_scan, C36_all_notified,
  C36_foreign, C36_initializer, C36_no_late_waiter, C36_once, C36_successful, C37_incomplete_partial,
  C37_not_rethrown, C37_yield_ignores_failure, C38_expired, C38_password, C38_redis_session, C38_services, C38_shrink,
  C39_error_type, C43_datetime, C44_uninitialized, C45_primary_multi, C45_primary_nullable, C46_one_element, C46_pack,
  C47_mongo, C47_redis, C48_null, C48_only_spelled, C48_spelled, C49_array_size, C49_boolean, C49_integer, C49_real,
  C49_string, C51_dropped, C51_in_order, C51_no_deadlock, C51_not_lost, C51_synchronize, C51_written_in_order,
  C52_lowest_wrong, C54_hex_encode, C56_limit, C56_limit_fails, C56_past_end, C57_failure, C58_map_partial,
  C59_header_list, C60_error, C60_progress, C61_violated, C62_constructor, C62_fits, C62_text, C65_starved,
  C66_blocked, C66_not_blocked_partial, C67_limit, C69_packets, C69_send, C70_connections_partial, C70_endless,
  C70_order, C72_assemble, C72_complete, C72_payload, C72_regroup, C73_absolute_partial, C73_at_in_query,
  C73_url_in_query, C74_ipv6, C74_proxy_partial, C75_after_error, C75_limit, C75_no_host, C75_proxy, C75_status,
  C76_switch, C76_tunnel, C78_reduce_partial, C81_binary, C81_escape_false, C81_escape_text, C81_escape_violated,
  C81_json_partial, C81_oid, C82_assemble_partial, C82_complete, C82_payload, C82_reason_unlimited, C82_regroup,
  C83_hang, C83_hang_example, C84_tunnel, C87_clear, C87_malformed, C88_arguments, C88_conversation, C88_rows_partial,
  C88_safe, C88_unsigned, C89_mongo, C89_mongo_end, C89_mysql, C89_mysql_error, C90_violated, C90_violated_header,
  C90_violated_payload, C91_exception, C91_exception_client, C92_peer_request, C92_peer_response, C92_violated,
  C92_violated_header, C92_violated_status, C96_head, C97_emptied, C97_two, C99_fibers, C99_levels,
  C99_logger_partial, C99_modules, C99_mongo, C99_mysql, C99_network, C99_redis, C99_reported

* **`Classical.choice`, `Quot.sound`, `propext`** (377 theorems): 
  C01_accepts_exactly, C01_constructor_partial, C01_fields, C01_literal, C01_rejects_exactly, C01_roundtrip,
  C02_bounds, C02_compare_lexicographic, C02_equals, C02_hash, C02_operators, C02_total_order, C03_v4_bits,
  C03_v7_bits, C04_v7_increasing_partial, C04_v7_wraps, C05_timespec_exact, C05_timespec_unique, C06_asctime,
  C06_calendar, C06_construct, C06_cookie, C06_git_partial, C06_parse, C06_rfc1123, C06_rfc850_partial, C08_parse,
  C08_reject, C09_involution, C09_masking, C100_order, C101_asked_partial, C101_cut_partial, C101_end_partial,
  C101_order_partial, C101_session_partial, C102_asked_partial, C102_cut_partial, C102_end_partial,
  C102_order_partial, C102_session_partial, C103_asked_partial, C103_cut_partial, C103_end_partial,
  C103_order_partial, C103_requests_partial, C103_session_partial, C104_no_deadlock_partial, C104_own_socket,
  C104_progress_partial, C104_returns_partial, C105_kept_partial, C105_known_partial, C105_no_race_partial,
  C105_right_partial, C107_received_partial, C108_awake, C108_contract, C108_defined, C108_earliest,
  C108_fibers_defined, C108_fibers_earliest, C108_fibers_sleep, C108_fires, C108_progress, C108_refines, C108_sleep,
  C109_alter_partial, C109_create_partial, C10_exact, C110_attempts, C110_certificate_partial, C110_connect,
  C110_host_partial, C110_refuses_partial, C110_violated_ipv6, C110_violated_long, C110_websocket_partial,
  C111_bounded, C111_goes_on, C111_logs, C111_not_killed, C111_pid_file, C111_prompt, C111_status, C112_contract,
  C112_exchange_partial, C112_requests, C112_responses_partial, C113_exchange_end_partial, C113_exchange_partial,
  C113_requests_end_partial, C113_requests_partial, C114_handshake_partial, C114_to_client_partial,
  C114_to_server_partial, C115_last_partial, C116_once, C116_order_partial, C116_presupposed_partial,
  C117_callback_partial, C117_complete_partial, C117_end, C117_last, C117_received, C118_callback, C118_complete,
  C118_faithful, C118_order, C118_sent, C119_callback, C119_complete, C119_never_early, C119_punctual, C119_schedule,
  C119_start, C11_partial, C11_violated, C120_defined, C120_depth_partial, C120_freed, C120_kept, C120_recursion,
  C120_terminates, C121_answered, C121_in_order_partial, C121_only, C122_contract, C122_page_partial,
  C122_violated_head, C122_violated_status, C123_between, C123_mongo, C123_mongo_once, C123_mysql, C123_mysql_once,
  C123_order, C123_redis, C123_redis_once, C123_resumed, C123_view, C124_exception, C124_logged, C125_batch,
  C125_complete, C125_lines_partial, C126_content, C126_in_order, C126_synchronize, C127_fiber, C127_launch,
  C127_logged, C127_synchronize, C127_task, C127_timer, C127_written, C127_yield, C128_completes, C128_fiber,
  C128_finalizes, C128_notifies, C129_delivers, C129_events_partial, C129_messages_cut_partial, C129_messages_partial,
  C129_plain_partial, C129_replies_cut_partial, C129_replies_partial, C129_requests_partial, C129_responses_partial,
  C129_sockets_partial, C129_stream_partial, C129_upgrade_cut_partial, C129_upgrade_partial, C12_limit, C12_overflow,
  C12_recovered, C130_flushes, C130_reports, C130_returns, C130_send, C130_shuts, C131_delivers, C131_end,
  C132_callback_partial, C132_end_partial, C132_requests_partial, C132_responses_partial, C14_reported,
  C15_compressed_partial, C15_cut_partial, C15_mixed_partial, C15_partial, C15_terminates, C15_violated_cut,
  C16_recovered, C16_refused, C16_send, C16_shut_down, C19_absolute, C21_exact, C21_in_header,
  C21_quoted_exact_partial, C21_quoted_partial, C22_canonicalize, C22_idempotent, C24_open, C25_output_any_time,
  C26_drained, C29_delivery, C29_free_slots, C29_no_failure, C29_none, C29_reaches, C29_stale_event, C30_after_event,
  C30_history, C32_after_release, C32_earliest, C32_never_early, C33_abandoned, C33_at_most_once, C33_exactly_once,
  C33_not_lost, C34_resumed, C34_sleep, C34_sleep_timeout, C34_timeout, C34_woken, C35_exclusive, C35_no_leak,
  C35_no_wild_access, C35_not_cached_and_used, C38_allocate, C38_bound_constant, C38_bound_partial, C38_closed,
  C38_disjoint, C38_giveBack, C38_owner, C38_reset, C38_return, C38_service, C38_session_partial, C38_use,
  C39_delivered_partial, C39_ignored_partial, C39_not_concurrent_partial, C39_one_fiber_partial, C39_order_partial,
  C39_pending_partial, C39_stream_partial, C40_ipv4, C40_ipv6, C41_equals, C41_order, C41_total_order, C41_v4mapped,
  C42_structure, C42_value, C43_append, C43_literal, C43_two, C44_instant_partial, C44_offset, C45_converges_partial,
  C45_created_partial, C45_detects, C45_needed, C45_other_columns, C45_other_indexes, C45_total,
  C46_roundtrip_partial, C48_rest_ignored, C50_colors, C50_no_controls, C50_one_line, C50_text, C52_range,
  C52_reduce180, C52_reduce360, C53_blank_piece_wrong, C53_explode_implode, C53_explode_limit, C53_explode_padded,
  C53_leading_delimiter_wrong, C53_limit_bound, C56_slice_partial, C57_addresses, C58_probing, C60_next_element,
  C60_terminates, C61_agree_partial, C61_request, C63_connected_once, C64_life, C64_not_lost, C64_one_at_a_time,
  C65_not_starved_partial, C67_messages, C68_compress, C68_decompress, C68_deflate, C68_finish, C68_flush,
  C68_inflate, C68_inflate_finish, C68_roundtrip, C71_alive, C71_delivered, C71_ignored, C71_not_concurrent,
  C71_order, C71_pending, C71_progress, C71_stop_partial, C73_origin_partial, C73_sound_partial, C74_request_partial,
  C75_order, C75_order_partial, C76_pieces_partial, C77_delivery, C77_switch, C78_trig_partial, C79_360_violated,
  C79_direction_partial, C79_infinite_violated, C79_nearest_violated, C79_total_partial, C80_angle, C80_near,
  C80_polar, C80_rotate, C83_order_partial, C84_pieces_partial, C85_delivery, C85_last, C85_switch, C86_service,
  C87_conversation, C87_reset, C89_redis, C90_asked, C90_closing, C90_cut_partial, C90_first_partial, C90_order,
  C90_returns, C90_session, C91_reported, C92_asked, C92_cut_partial, C92_first_partial, C92_order, C92_returns,
  C92_session, C93_reported, C94_delivered_partial, C94_prefix_partial, C94_stream_end_partial, C94_stream_partial,
  C95_server_end_partial, C95_server_partial, C96_client_end_partial, C96_client_partial, C97_alone_partial,
  C97_content_partial, C97_kept_partial, C97_refused, C97_writers, C98_order, C98_path, C98_status, C98_success,
  C98_usage, C99_level

## 7. What is modelled and what is not

Files are under `/repo/poseidon/src`; modules under `lean/Verif/Model`.  Citations in the modules give lines.

| file | modules | left out |
|---|---|---|
| geometry.cpp | Geometry | |
| main.cpp | Startup, PidFile, Reload, Locks, Shutdown | the text of help and version (104-153), creation of threads (324-373 only as far as signals are concerned, 374-385 only as a list), seeding of random numbers, limits of the process; what threads do between `synchronize()` and `quick_exit()` |
| utils.cpp | Utils, Hex, Uri, MongoText, ErrorText | `random_bytes()` |
| fwd.cpp, static/main_config.cpp | Reload (copying), Locks | nothing else of them does anything |
| base/abstract_deflator.cpp, base/abstract_inflator.cpp | Zlib | constructors; zlib itself is a contract |
| base/abstract_task.cpp, base/abstract_timer.cpp, fiber/abstract_fiber.cpp | Task, Timer, Fiber | constructors and `lock_scheduler` functions (Locks) |
| base/appointment.cpp | Appointment | |
| base/config_file.cpp | Config | the Asteria parser, which is a contract |
| base/datetime.cpp | DateTime | `DateTime(string)` constructors, which throw if parsing fails |
| base/uuid.cpp, uuid.hpp | Uuid, UuidLiteral, Locks | the quality of random numbers |
| easy/easy_tcp_*.cpp, easy_ssl_*.cpp | Easy, EasyNet, EasyStream, EasyConnect | `start()` other than registration (addresses: Uri, Listen) |
| easy/easy_http_*.cpp, easy_https_*.cpp | Easy, EasyNet, EasyHttp | likewise |
| easy/easy_ws_*.cpp, easy_wss_*.cpp | Easy, EasyNet, EasyWs | likewise |
| easy/easy_hws_server.cpp, easy_hwss_server.cpp | Easy, EasyNet, EasyHws | likewise |
| easy/easy_timer.cpp, easy_udp_*.cpp | EasyQueue, UdpLink, EasyTimer | |
| fiber/abstract_future.cpp | Fiber, Locks | |
| fiber/dns_query_future.cpp, read_file_future.cpp | Futures | |
| fiber/mongo_query_future.cpp, redis_query_future.cpp | Queries, DbAsk | the destruction of query futures |
| fiber/mysql_query_future.cpp | MysqlQuery, Queries, DbAsk | the destruction of query futures |
| fiber/mysql_check_table_future.cpp | MysqlCheck, SqlText | |
| fiber/redis_scan_and_get_future.cpp | Redis | |
| http/http_c_headers.cpp, http_s_headers.cpp | Http, HttpRequest, HttpResponse, Uri | |
| http/http_field_name.cpp, http_query_parser.cpp | Http | |
| http/http_header_parser.cpp, http_value.cpp, http_value.hpp | HttpValue, HttpStore | |
| http/http_request_parser.cpp, http_response_parser.cpp | HttpLib, HttpRequest, HttpResponse, HttpAgain | http-parser itself is a contract (HttpLib; for valid messages `ReadsRequests` and `ReadsReplies` of Spec/HttpExchange) |
| http/websocket_deflator.cpp | WsSession, Zlib, WsPeers, Locks | zlib itself is a contract |
| http/websocket_frame_header.cpp, websocket_frame_parser.cpp | Ws, WsHandshake | SHA-1 and base64 are contracts |
| mongo/*.cpp | Mongo, MongoText, Queries, Pool, ValueDrop | libmongoc and libbson are contracts |
| mysql/*.cpp | Mysql, MysqlQuery, SqlText, Connection, Pool | libmysqlclient is a contract; `mysql_table_*.cpp` have no functions but destructors |
| redis/*.cpp | Redis, Connection, Pool, ValueDrop | hiredis is a contract |
| socket/abstract_socket.cpp | Socket, SocketTable, Address, Locks | socket options set by the constructors |
| socket/dns_connect_task.cpp | DnsConnect | |
| socket/http_client_session.cpp, https_client_session.cpp | HttpClient, HttpAgain, HttpRequest, HttpExchange, EasyConnect | ALPN |
| socket/http_server_session.cpp, https_server_session.cpp | HttpServer, HttpAgain, Http, HttpExchange, HttpPage | |
| socket/ipv6_address.cpp | Ipv6 | |
| socket/ssl_socket.cpp | Socket | OpenSSL is a contract; socket options |
| socket/tcp_acceptor.cpp | Listen | socket options |
| socket/tcp_socket.cpp | Socket, EasyNet, TcpLink | socket options |
| socket/udp_socket.cpp | Listen, EasyQueue, Multicast | |
| socket/ws_client_session.cpp, wss_client_session.cpp | WsClient, WsSession (C121: answers), WsPeers, WsHandshake, EasyConnect, WsExchange | |
| socket/ws_server_session.cpp, wss_server_session.cpp | WsServer, WsSession, WsPeers, WsHandshake, WsExchange | |
| static/fiber_scheduler.cpp | Fiber, FiberHeap, Stack, Reload, Locks | `swapcontext()` and sanitizer hooks |
| static/logger.cpp | LogAll, LogEntry, LogFiles, Logger, Reload, Locks | the crash handler's use of it |
| static/mongo_connector.cpp, mysql_connector.cpp, redis_connector.cpp | Pool, Reload, Locks | initialization of client libraries |
| static/network_scheduler.cpp | SocketTable, Socket, EasyNet, Reload, Locks, EasyConnect | OpenSSL contexts other than their lifetime and whether clients verify |
| static/task_scheduler.cpp, timer_scheduler.cpp | Task, Timer, TimerHeap, Locks | |

The files of `ssl`, `https`, `wss` and `hwss` classes are the same as their plain counterparts up to names of classes, a flag
for TLS, the default port 443 and texts of messages (compared with `diff`), and so are modelled by the same modules; what
differs below them is `SSL_Socket` (Socket).  Failures of memory allocation
are left out unless a comment in a module says otherwise.  Real time is modelled by arbitrary non-decreasing clocks.
