{"id": "C01", "title": "Client behaviour does not depend on how the network splits the input", "statement": "Two users of identical Client values that only feed input and call next see the same observations (outputs, events, errors, in the same order), however each of them splits the same received byte stream into enqueue_input calls and however those calls are interleaved with next calls: one observation list is always a prefix of the other, once the 'need more input' results are left out.", "quantifier": "every client state reachable through the API, every byte stream, every two ways of chunking it, every interleaving of enqueue_input and next", "why_tests_cant": "the number of chunkings is exponential in the stream length and the interesting ones split inside CRLF, literal headers and literals", "anchors": ["src/receive.rs: ReceiveState::next, progress_line, progress_literal, find_crlf", "src/client.rs: Client::next, enqueue_input"]}
{"id": "C02", "title": "Server reception does not depend on how the network splits the input", "statement": "For two users of identical Server values that only feed input and call next, the sequence of received messages and reception errors (with their discarded bytes) is the same, however the same byte stream is split into enqueue_input calls and interleaved with next calls (one is a prefix of the other).", "quantifier": "every server state reachable through the API, every byte stream, every two chunkings and interleavings", "why_tests_cant": "exponentially many chunkings; splits inside CRLF, literals and at the size limit", "anchors": ["src/receive.rs: ReceiveState", "src/server.rs: Server::next, enqueue_input"]}
{"id": "C03", "title": "Every received byte is accounted for exactly once and in order", "statement": "The concatenation of the bytes of every delivered message and of the discarded_bytes of every reported error, in the order of the calls, followed by the bytes still buffered, is exactly the concatenation of everything passed to enqueue_input. Nothing is lost, duplicated or reordered, including across switches between greeting/response and command/authenticate/idle reception.", "quantifier": "every history of API calls on a Client or Server, every byte stream", "why_tests_cant": "must hold for every history; a lost byte appears only at particular buffer boundaries", "anchors": ["src/receive.rs: finish_message, discard_message, change_codec", "src/client_receive.rs: change_state", "src/server_receive.rs: change_state"]}
{"id": "C04", "title": "Strict mode never accepts a bare LF line ending, relaxed mode accepts both", "statement": "With crlf_relaxed = false, a line whose terminating LF is not preceded by CR within the same line is never decoded: the call reports ExpectedCrlfGotLf whose discarded bytes end with that line. With crlf_relaxed = true ExpectedCrlfGotLf is never reported.", "quantifier": "every byte stream, every chunking, every position of the line (first line or a line after a literal, including a literal that ends with CR)", "why_tests_cant": "the CR may have arrived in an earlier chunk or be the last byte of a literal", "anchors": ["src/receive.rs: find_crlf, progress_line"]}
{"id": "C05", "title": "The server never buffers-to-decode or delivers a message longer than max_command_size", "statement": "No command, authenticate data or DONE that is delivered by the server spans more than max_command_size bytes on the wire, and no error discards more than max_command_size bytes; CommandTooLong is reported only when the discarded bytes are exactly the first max_command_size bytes of the unfinished message.", "quantifier": "every option value, byte stream, chunking and history", "why_tests_cant": "off-by-one at the boundary, interaction of the limit with lines and literals", "anchors": ["src/receive.rs: max_readable_bytes, progress_line, progress_literal", "src/server.rs: Server::progress_receive, Options::max_command_size"]}
{"id": "C06", "title": "Bytes inside an accepted literal are opaque", "statement": "After a literal of announced length n is accepted, the next n bytes are never searched for line endings nor decoded as a message of their own: whatever they contain, the next message or line error consumes strictly more than the announcing prefix plus n bytes (unless the size limit is hit, in which case CommandTooLong is reported).", "quantifier": "every literal content (including CR, LF, braces and complete commands), every length, every chunking", "why_tests_cant": "literal content is arbitrary data", "anchors": ["src/receive.rs: start_literal, progress_literal"]}
{"id": "C07", "title": "The client never panics", "statement": "Given the codec contract (a successful decode of a message consumes through its final line ending; literals are opaque; AUTHENTICATE, IDLE, authenticate data and DONE encode to one line), no sequence of API calls and no server bytes make the client panic (slice out of range, failed assertion, unreachable code).", "quantifier": "every history of API calls, every byte stream from the server", "why_tests_cant": "panics hide in slice arithmetic and asserts reachable only for particular histories", "anchors": ["src/client.rs", "src/client_send.rs", "src/receive.rs", "src/client_receive.rs"]}
{"id": "C08", "title": "The server never panics", "statement": "Given the codec contract and options built through the public setters, no sequence of API calls and no client bytes make the server panic.", "quantifier": "every options value, history of API calls, byte stream from the client", "why_tests_cant": "as C07; includes the unwraps on the configured literal texts", "anchors": ["src/server.rs", "src/server_send.rs", "src/server_receive.rs", "src/receive.rs", "src/server.rs: Options::set_literal_accept_text"]}
{"id": "C09", "title": "next always returns", "statement": "Client::next and Server::next terminate in every reachable state: their internal loops run at most once per buffered byte.", "quantifier": "every reachable state, every buffered input", "why_tests_cant": "a loop that diverges on one input is not found by sampling", "anchors": ["src/client.rs: Client::next, progress_receive", "src/server.rs: Server::next", "src/receive.rs: ReceiveState::next"]}
{"id": "C10", "title": "A complete buffered message is never withheld", "statement": "If the input given so far contains a complete message (or a complete line that must be rejected, or reached the size limit), calling next does not keep answering NeedMoreInput: the client answers NeedMoreInput only if the unconsumed input, read from its start, is an unfinished line or literal below the limit; the same for the server unless it waits for idle_accept/idle_reject.", "quantifier": "every reachable state and input", "why_tests_cant": "a missed wake-up happens only for particular buffer positions (already-seen bytes)", "anchors": ["src/receive.rs: seen_bytes, seen_bytes_in_line", "src/client.rs: Client::next", "src/server.rs: Server::next"]}
{"id": "C11", "title": "The client sends nothing before the greeting", "statement": "Client::next returns no Output (and no sent event) before it has returned GreetingReceived, whatever commands are enqueued and whatever bytes arrive.", "quantifier": "every history of API calls and inputs before the greeting", "why_tests_cant": "quantifies over all histories", "anchors": ["src/client.rs: Client::progress_send"]}
{"id": "C12", "title": "Commands go on the wire in enqueue order, byte-exact and not interleaved", "statement": "In every history the concatenation of all Output bytes is the concatenation, in enqueue order, of one segment per started command; the segment of a regular command reported CommandSent is exactly its encoding; of a rejected one the part of its encoding before the synchronizing literal the server refused; of AUTHENTICATE its line followed by the accepted authenticate data lines; of IDLE its line followed by DONE if it was accepted and ended; the segment of the command in progress is a prefix of such a segment. Later commands contribute nothing before earlier ones are finished.", "quantifier": "every history of API calls and every server byte stream", "why_tests_cant": "depends on every interleaving of sending, continuation requests, rejections and enqueues", "anchors": ["src/client_send.rs: ClientSendState::next, push_to_buffer, finish_sending", "src/client.rs"]}
{"id": "C13", "title": "Every enqueued command is reported at most once, in enqueue order, with its own handle and content", "statement": "The terminal events (CommandSent, CommandRejected, AuthenticateStatusReceived, IdleDoneSent, IdleRejected) occur in enqueue order, at most one per enqueued command, each carrying the handle returned by enqueue_command and the identical command (or its AUTHENTICATE parts).", "quantifier": "every history of API calls and every server byte stream", "why_tests_cant": "must hold for every history", "anchors": ["src/client.rs: Event", "src/client_send.rs: ClientSendEvent, ClientSendTermination"]}
{"id": "C14", "title": "A synchronizing literal is never sent before the server's continuation request", "statement": "The client stops right before a synchronizing literal and outputs the literal only in a call that has decoded a continuation request while that literal was pending; each continuation request releases at most one literal. Non-synchronizing literals are sent without waiting.", "quantifier": "every command with any number of literals of any mode, every server byte stream and every history", "why_tests_cant": "literal/continuation interleavings are unbounded", "anchors": ["src/client_send.rs: CommandState::push_to_buffer, literal_continue"]}
{"id": "C15", "title": "A tagged BAD during a literal rejects exactly that command", "statement": "While a command waits for its literal to be accepted, receiving a tagged BAD with that command's tag yields CommandRejected with its handle, the command and that status; no further byte of it is ever sent and the next queued command is started by the following calls. Any other status (other tag, OK, NO, untagged, BYE) is reported as StatusReceived and leaves the send side untouched.", "quantifier": "every pending command, every status, every queue", "why_tests_cant": "quantifies over all statuses and states", "anchors": ["src/client_send.rs: maybe_terminate", "src/client.rs: progress_receive"]}
{"id": "C16", "title": "AUTHENTICATE data is taken exactly when the server asked for it", "statement": "set_authenticate_data returns Ok exactly when the last thing that happened to the running AUTHENTICATE was an AuthenticateContinuationRequestReceived not answered yet; the data's single line is then the next thing output. Otherwise it returns the data unchanged in Err and changes nothing. A tagged status with its tag ends the exchange with AuthenticateStatusReceived.", "quantifier": "every history of API calls and server bytes", "why_tests_cant": "quantifies over all histories", "anchors": ["src/client_send.rs: set_authenticate_data, authenticate_continue, maybe_terminate"]}
{"id": "C17", "title": "IDLE: DONE only after acceptance, nothing else in between", "statement": "set_idle_done returns a handle exactly when the running IDLE was accepted by a continuation request and DONE was not requested yet; DONE is output only after that; from the IDLE line until DONE was output (or the IDLE was ended by a tagged status) no byte of any other command is output.", "quantifier": "every history of API calls and server bytes", "why_tests_cant": "quantifies over all histories", "anchors": ["src/client_send.rs: idle_continue, set_idle_done, IdleState"]}
{"id": "C18", "title": "Every received response is reported exactly once and to the right consumer", "statement": "Each decoded greeting/response produces exactly one event, in order, carrying it unchanged, except a continuation request that releases a pending literal, which produces none; a continuation request goes to the pending literal if there is one, else to the running AUTHENTICATE waiting for the server, else to the running IDLE waiting for the server, else to the user as ContinuationRequestReceived.", "quantifier": "every history, every response sequence", "why_tests_cant": "quantifies over all response sequences and send states", "anchors": ["src/client.rs: Client::progress_receive"]}
{"id": "C19", "title": "Server output is the greeting followed by the responses in enqueue order, whole and exactly once", "statement": "In every history the list of Output chunks is exactly the list of encodings of a prefix of: the greeting, then all responses (user-enqueued ones and the literal continuations/rejections generated by the server) in the order in which they were enqueued; each chunk is one complete message.", "quantifier": "every history of API calls and every client byte stream", "why_tests_cant": "every interleaving of enqueue, next and input", "anchors": ["src/server_send.rs: ServerSendState::next, push_to_buffer", "src/server.rs: Server::progress_send, Server::new"]}
{"id": "C20", "title": "Every sent event belongs to the output just handed out", "statement": "GreetingSent/ResponseSent events occur in enqueue order, exactly one per user-enqueued response, carry its handle and content, and occur after its Output and before the Output of the next message; internally generated responses produce no event.", "quantifier": "every history", "why_tests_cant": "quantifies over all histories", "anchors": ["src/server.rs: Server::progress_send", "src/server_send.rs"]}
{"id": "C21", "title": "The server answers every acceptable synchronizing literal with exactly one continuation", "statement": "When the command prefix received so far announces a literal with length <= max_literal_size, the server enqueues exactly one continuation request with the configured accept text if it is synchronizing and nothing if it is non-synchronizing, and reception continues with the literal.", "quantifier": "every command prefix, literal length, mode and option value", "why_tests_cant": "boundary of the limit, chunking, repeated next calls must not duplicate the continuation", "anchors": ["src/server.rs: Server::progress_receive"]}
{"id": "C22", "title": "An oversized literal is rejected and the server resynchronizes at the following byte", "statement": "When the announced length exceeds max_literal_size the call returns LiteralTooLong whose discarded bytes are exactly the command prefix received so far; for a synchronizing literal a tagged BAD with the command's tag and the configured reject text is enqueued, for a non-synchronizing one nothing; the next byte starts a new command.", "quantifier": "every command prefix, length, mode and option value", "why_tests_cant": "boundary of the limit and state reset for every prefix", "anchors": ["src/server.rs: Server::progress_receive"]}
{"id": "C23", "title": "Server AUTHENTICATE/IDLE methods succeed exactly in their phase", "statement": "authenticate_continue and authenticate_finish succeed exactly between CommandAuthenticateReceived and authenticate_finish; idle_accept and idle_reject exactly between IdleCommandReceived and the first successful idle_accept/idle_reject. On success the response is appended to the send queue; on failure the argument is returned unchanged and nothing changes.", "quantifier": "every history of API calls and client bytes", "why_tests_cant": "quantifies over all histories", "anchors": ["src/server.rs: authenticate_continue, authenticate_finish, idle_accept, idle_reject"]}
{"id": "C24", "title": "Client bytes are interpreted in the right phase", "statement": "Messages are decoded as commands, except between CommandAuthenticateReceived and authenticate_finish (authenticate data) and between idle_accept and IdleDoneReceived (DONE); between IdleCommandReceived and idle_accept/idle_reject nothing is decoded and input is kept.", "quantifier": "every history of API calls and client bytes, including pipelined input", "why_tests_cant": "pipelined bytes around phase changes", "anchors": ["src/server_receive.rs: ServerReceiveState::change_state", "src/server.rs: progress_receive"]}
{"id": "C25", "title": "NeedMoreInput means nothing is left to send", "statement": "When next returns NeedMoreInput, everything that may be sent has been handed out: for the client the queue is empty or the current message waits for the server or the user; for the server every enqueued response has been output.", "quantifier": "every reachable state", "why_tests_cant": "a stall needs a particular history (an internal response in front of a user response)", "anchors": ["src/client.rs: Client::next", "src/server.rs: Server::next, progress_send"]}
{"id": "C26", "title": "Bytes of an accepted literal never become commands", "statement": "Once the server has accepted a literal (sent its continuation request, or the literal was non-synchronizing), none of its bytes is later interpreted as the beginning of a new command.", "quantifier": "every command, literal content and option value", "why_tests_cant": "needs adversarial content at the size limit", "anchors": ["src/receive.rs: progress_literal", "src/server.rs: progress_receive, Options::max_command_size"]}
{"id": "C27", "title": "Handles are unique", "statement": "Handles returned by enqueue calls of all Client (Server) instances of a process are pairwise different, for every interleaving of instance creation and enqueues, as long as fewer than 2^64 instances and fewer than 2^64 enqueues per instance were made; the counters wrap instead of panicking.", "quantifier": "every interleaving of generator creation and handle generation", "why_tests_cant": "concurrent interleavings, 64-bit wrap-around", "anchors": ["src/handle.rs: HandleGenerator::generate, HandleGeneratorGenerator::generate"]}
{"id": "C28", "title": "Generated tags are unique and valid", "statement": "Tags produced by all TagGenerators of a process are pairwise different for every interleaving and every random token, as long as fewer than 2^64 generators and fewer than 2^64 tags per generator were made, and each consists only of characters allowed in an IMAP tag.", "quantifier": "every interleaving of TagGenerator::new and generate, every random token", "why_tests_cant": "decimal concatenation could collide; all interleavings and random draws", "anchors": ["tag-generator/src/lib.rs: TagGenerator::new, generate"]}
{"id": "C29", "title": "Stream delivers input bytes in order without loss, even when next is cancelled", "statement": "The bytes passed to the state by a plain (non-TLS) Stream are exactly, in order, the bytes read from the socket, minus those still in its read buffer, for every sequence of next/flush calls, every outcome of the read/write race and every point at which a pending next or flush future is dropped.", "quantifier": "every schedule of socket readiness, partial reads/writes, cancellations", "why_tests_cant": "schedules and cancellation points are unbounded", "anchors": ["src/stream.rs: Stream::next, read"]}
{"id": "C30", "title": "Stream writes output bytes in order without loss, even when next is cancelled", "statement": "The bytes written to the socket by a plain Stream followed by the bytes in its write buffer are exactly, in order, the concatenation of all Output interrupts of the state, for every schedule, partial write and cancellation; a successful flush leaves the write buffer empty.", "quantifier": "every schedule of socket readiness, partial reads/writes, cancellations", "why_tests_cant": "schedules and cancellation points are unbounded", "anchors": ["src/stream.rs: Stream::next, Stream::flush, write"]}
{"id": "C31", "title": "A sent event means the bytes were written", "statement": "When Stream::next returns a sent event (CommandSent, ResponseSent, ...), all bytes of that message have been written to the socket.", "quantifier": "every schedule of socket readiness", "why_tests_cant": "depends on which branch of the read/write race completes first", "anchors": ["src/stream.rs: Stream::next"]}
{"id": "C32", "title": "A closed connection is reported as Closed", "statement": "Stream::next returns Closed exactly when a socket read or write it performed returned zero bytes; it returns state errors and events without doing I/O in between.", "quantifier": "every schedule", "why_tests_cant": "quantifies over schedules", "anchors": ["src/stream.rs: read, write, Stream::next"]}
{"id": "C33", "title": "TLS decryption terminates and passes on all plaintext", "statement": "For every sequence of TLS records available in the read buffer, the decrypt step of Stream::next terminates and hands exactly the contained plaintext, in order, to the state; this includes a peer's close_notify.", "quantifier": "every record sequence", "why_tests_cant": "the close path is a rare event and a hang is not a failing assertion", "anchors": ["src/stream.rs: decrypt"]}
{"id": "C34", "title": "TLS encryption accepts every output", "statement": "The encrypt step of Stream::next turns every Output of the state into records carrying exactly its bytes, in order, whatever its length.", "quantifier": "every output length", "why_tests_cant": "depends on a size limit inside the TLS library", "anchors": ["src/stream.rs: encrypt"]}
{"id": "C35", "title": "End to end: the client decodes exactly what the server sent, in order", "statement": "For a Client and a Server connected by two reliable byte channels, the greeting and responses the client has decoded are, in every reachable global state, a prefix of the greeting and responses the server has enqueued, unchanged and in order; no error is ever reported by the client.", "quantifier": "every schedule of both sides and both channels (arbitrary delays and fragmentation), every user behaviour on both sides, all messages satisfying the codec round trip", "why_tests_cant": "distributed interleavings", "anchors": ["src/client.rs", "src/server.rs", "src/receive.rs", "src/server_send.rs"]}
{"id": "C36", "title": "End to end: the server receives exactly the commands the client enqueued, in order", "statement": "For a Client and a Server connected by two reliable byte channels, with regular commands that respect the limits and no command rejected, the commands delivered by the server are in every reachable global state a prefix of the commands the client enqueued, unchanged and in order; the server reports no error; literals are negotiated transparently.", "quantifier": "every schedule, every fragmentation, every number of literals of any mode and content", "why_tests_cant": "distributed interleavings", "anchors": ["src/client.rs", "src/client_send.rs", "src/server.rs", "src/receive.rs"]}
{"id": "C37", "title": "End to end: literal negotiation cannot deadlock", "statement": "In the system of C36, if no further step is possible (both channels empty, both sides ask for more input and would do so again), then every enqueued command has been delivered to the server and reported as sent.", "quantifier": "every schedule", "why_tests_cant": "deadlocks appear only in particular interleavings", "anchors": ["src/client_send.rs", "src/server.rs"]}
{"id": "C38", "title": "Capability filtering is sound, order-preserving, non-empty and idempotent", "statement": "The list the proxy forwards for a received capability list contains only supported capabilities; it is the sub-list of the supported ones in the original order, or exactly IMAP4rev1 if none is supported; it is never empty; SCRAM-*-PLUS and unknown mechanisms are never advertised; filtering again changes nothing.", "quantifier": "every capability list", "why_tests_cant": "infinitely many lists", "anchors": ["proxy/src/util.rs: filter_capabilities, is_auth_mechanism_proxyable"]}
{"id": "C39", "title": "The proxy never forwards an unsupported capability", "statement": "No greeting or response the proxy sends to its client carries a capability outside the allow-list.", "quantifier": "every server behaviour and every history", "why_tests_cant": "quantifies over all server responses and flows", "anchors": ["proxy/src/proxy.rs: handle_server_event, start_conversation", "proxy/src/util.rs"]}
{"id": "C40", "title": "The proxy never panics", "statement": "No behaviour of the IMAP client or of the IMAP server connected to the proxy makes it panic.", "quantifier": "every behaviour of both peers", "why_tests_cant": "protocol races between two connections", "anchors": ["proxy/src/proxy.rs: handle_client_event, handle_server_event"]}
{"id": "C41", "title": "The proxy forwards commands unchanged, in order and exactly once", "statement": "The commands the proxy enqueues towards the server are, in every history, exactly the commands (including AUTHENTICATE and IDLE) it received from the client, unchanged and in order.", "quantifier": "every history of events on both connections", "why_tests_cant": "quantifies over all histories", "anchors": ["proxy/src/proxy.rs: handle_client_event"]}
{"id": "C42", "title": "The proxy forwards responses in order, changed only as announced", "statement": "Every data, status and user-visible continuation received from the server is enqueued towards the client exactly once, in order, changed only by capability filtering; a literal rejection becomes a BAD with the command's tag that keeps the text exactly when it is an alert.", "quantifier": "every history of events on both connections", "why_tests_cant": "quantifies over all histories", "anchors": ["proxy/src/proxy.rs: handle_server_event", "proxy/src/util.rs"]}
{"id": "C43", "title": "Literal accept/reject texts are always valid", "statement": "set_literal_accept_text/set_literal_reject_text change exactly their text on success, change nothing and give the text back on failure, and every Options value reachable from the default holds texts for which building the continuation request succeeds.", "quantifier": "every sequence of setter calls with arbitrary strings", "why_tests_cant": "arbitrary strings and call sequences", "anchors": ["src/server.rs: Options"]}
{"id": "C44", "title": "Client and server agree on a rejected literal", "statement": "If the server rejects a synchronizing literal and the client receives the rejection, the client reports CommandRejected for exactly that command and the server's next command is the client's next command.", "quantifier": "every schedule, every oversized command", "why_tests_cant": "distributed interleavings", "anchors": ["src/server.rs", "src/client_send.rs: maybe_terminate"]}
{"id": "C45", "title": "What the proxy has received reaches the other side before it closes", "statement": "A response that the proxy has received from the server is written to the client before the proxy closes the connection to the client because the server has closed its one.", "quantifier": "every history of events on both connections", "why_tests_cant": "timing of closing and writing", "anchors": ["proxy/src/proxy.rs: start_conversation, handle_server_event", "src/stream.rs: Stream::next"]}
{"id": "C46", "title": "A waiting proxy has passed on everything", "statement": "Whenever the proxy waits for input on both connections, every response received from the server has been written to the client completely, and every command received from the client has been written to the server completely, except for commands behind one that waits for the server (literal, AUTHENTICATE, IDLE).", "quantifier": "every history of events on both connections and every schedule of reads and partial writes", "why_tests_cant": "liveness over interleavings of two connections", "anchors": ["proxy/src/proxy.rs: start_conversation", "src/stream.rs: Stream::next", "src/server.rs: next, progress_send"]}
{"id": "C47", "title": "A TLS stream delivers the plaintext in order without loss, also when next is cancelled", "statement": "For every schedule of reads, partial writes, cancellations and calls on a stream with TLS, if the bytes read are valid records without close_notify followed by the beginning of a record, then decrypt neither fails nor hangs and the state was given exactly the plaintext of these records; and whenever the state is called it was given the plaintext of everything read before.", "quantifier": "every record layer, every way the socket splits the records, every schedule, any State", "why_tests_cant": "quantifies over all splits of the input and all cancellation points", "anchors": ["src/stream.rs: Stream::next, ReadWriteState::read, decrypt"]}
{"id": "C48", "title": "A TLS stream sends the output in order without loss, also when next is cancelled", "statement": "For every schedule on a stream with TLS in which encrypt does not fail, the bytes written to the socket followed by the write buffer are records that a peer with the matching key opens to exactly the bytes the state handed out; when next waits for input or flush has succeeded, all of them have been written. encrypt fails exactly if the state hands out more bytes at once than the buffer limit.", "quantifier": "every record layer, every schedule of partial writes and cancellations, any State", "why_tests_cant": "quantifies over all partial writes and all cancellation points", "anchors": ["src/stream.rs: Stream::next, Stream::flush, encrypt, write"]}
{"id": "C49", "title": "next reports the end of a TLS connection", "statement": "When the peer closes the TLS connection (close_notify) or the TCP connection, next returns Error::Closed.", "quantifier": "every record layer, every schedule, any State", "why_tests_cant": "depends on how the alert is split and on what is pending", "anchors": ["src/stream.rs: Stream::next, decrypt, ReadWriteState::read"]}
{"id": "C50", "title": "A client and a server on streams behave like a client and a server", "statement": "Every run of a client and a server on two connected streams, with or without TLS, in which rustls accepts the plaintext, is a run of a client and a server whose input and output are passed directly: same calls with the same results, same states, the bytes on the way decrypt to the same bytes. There is no panic, no TLS error and no hanging next. rustls refuses plaintext only if more than its limit is handed out at once.", "quantifier": "every schedule of calls, reads, partial writes, socket failures and cancellations on both sides, every record layer that satisfies the contract", "why_tests_cant": "refinement over all interleavings of two processes and the network", "anchors": ["src/stream.rs: Stream::next, Stream::flush", "src/client.rs: Client", "src/server.rs: Server"]}
{"id": "C51", "title": "End to end on streams, commands and data arrive, and two waiting users are done", "statement": "For the users of a client and of a server on two connected streams, with or without TLS: the commands returned to the user of the server are a beginning of those enqueued by the user of the client, the data and statuses returned to the user of the client are a beginning of those enqueued by the user of the server, the first event returned to the user of the client is the greeting; no other events are returned except for reports of sending and continuation requests, and no errors of the protocol; and if both wait in next with nothing on the way, everything was delivered and all commands were reported as sent. Provided that no command is rejected.", "quantifier": "every schedule of calls, reads, partial writes, socket failures and cancellations on both sides, every sequence of good commands and responses", "why_tests_cant": "quantifies over all interleavings of two processes and the network", "anchors": ["src/stream.rs: Stream::next, Stream::flush", "src/client.rs: Client", "src/server.rs: Server"]}
{"id": "C52", "title": "End to end, AUTHENTICATE and IDLE dialogues stay in step", "statement": "For a client and a server passing their bytes to each other, with regular commands, AUTHENTICATE and IDLE in any order: the server reports commands, authenticate data and DONE exactly as the user of the client supplied them, in order and each as what it is, and discards nothing; the client reports the answers of the user of the server in order and each as what it is, at most one of them outstanding; no command is reported as rejected and no continuation request as unexpected. Provided that the user of the server follows the protocol.", "quantifier": "every schedule of calls and deliveries, every sequence of good messages, every lawful codec", "why_tests_cant": "quantifies over all interleavings of two state machines with two users", "anchors": ["src/client.rs: Client", "src/client_send.rs: ClientSendState", "src/server.rs: Server"]}
{"id": "C53", "title": "End to end, AUTHENTICATE and IDLE dialogues never hang", "statement": "For the systems of C52: if neither side can make a step without its user, the server has reported everything the client has said, the client has reported all answers, and either all commands were delivered, or an AUTHENTICATE or IDLE is in progress and both sides agree which of the two users is awaited.", "quantifier": "every schedule of calls and deliveries, every sequence of good messages, every lawful codec", "why_tests_cant": "deadlock freedom over all interleavings of two state machines", "anchors": ["src/client.rs: Client", "src/client_send.rs: ClientSendState", "src/server.rs: Server"]}
{"id": "C54", "title": "End to end, a system whose users stop comes to rest with everything delivered", "statement": "A client and a server passing their bytes to each other never panic. If their users stop making requests and next is called again and again on both sides and bytes are moved again and again, they come to rest for good: nothing is on the way and both sides wait for input. For the systems of C52 everything the client has said was then reported by the server and every answer by the client; if all commands are regular, each was delivered, in order and once, and reported as sent. Provided that max_command_size is not zero.", "quantifier": "every schedule of calls and deliveries, then every infinite fair schedule of next calls and deliveries of any size; every lawful codec", "why_tests_cant": "termination under every fair infinite schedule", "anchors": ["src/client.rs: Client::next", "src/server.rs: Server::next", "src/receive.rs: ReceiveState::next"]}
{"id": "C55", "title": "With TLS the proxy moves exactly the plaintext", "statement": "For a proxy whose connections use TLS or not, each independently: its server (towards the client) and its client (towards the server) are given exactly the plaintext of the records read, in order, and what is written to each socket are records that the peer opens to exactly what they handed out. A broken record, plaintext refused by rustls, or a connection that fails or is closed ends the conversation. The commands written to the server are a beginning of those the client has sent, as plaintext on both sides.", "quantifier": "every record layer that satisfies the contract, every history of events on both connections and every schedule of reads and partial writes", "why_tests_cant": "quantifies over all splits of the records, all cancellation points of select! and all interleavings of two connections", "anchors": ["proxy/src/proxy.rs: start_conversation", "src/stream.rs: Stream::next, decrypt, encrypt"]}
{"id": "C56", "title": "The proxy ends the conversation when a peer ends its TLS connection", "statement": "When the client or the server closes its TLS connection (close_notify) or the TCP connection, the proxy ends the conversation and closes both connections.", "quantifier": "every record layer, every history of events on both connections", "why_tests_cant": "depends on how the alert is split and on the state of both connections", "anchors": ["proxy/src/proxy.rs: start_conversation, handle_client_event, handle_server_event", "src/stream.rs: Stream::next, decrypt"]}
{"id": "C57", "title": "End to end through the proxy, commands and responses arrive unchanged", "statement": "For the user of a client and the user of a server whose streams are connected by the proxy, each connection with or without TLS: the commands returned to the user of the server are a beginning of those enqueued by the user of the client; the data and statuses returned to the user of the client are a beginning of those enqueued by the user of the server, with unsupported capabilities removed, and so is the greeting, which comes first; no other events are returned except for reports of sending and continuation requests, and no errors of the protocol. Provided that no command is rejected.", "quantifier": "every schedule of calls, reads, partial writes, socket failures and cancellations at the client, the proxy and the server, every sequence of good commands and responses", "why_tests_cant": "quantifies over all interleavings of three processes and two networks", "anchors": ["proxy/src/proxy.rs: start_conversation, handle_client_event, handle_server_event", "src/stream.rs: Stream::next, Stream::flush", "src/client.rs: Client", "src/server.rs: Server"]}
{"id": "C58", "title": "The proxy between a client and a server neither stalls nor fails", "statement": "For the systems of C57: if both users and the proxy wait and nothing is on the way, all commands were delivered to the user of the server and reported as sent to the user of the client, and all data and statuses were delivered to the user of the client. The client, the proxy and the server do not panic, none of them hangs, and TLS does not fail; the proxy ends the conversation only if one of its sockets was closed or failed.", "quantifier": "every schedule of calls, reads, partial writes, socket failures and cancellations at the client, the proxy and the server, every sequence of good commands and responses", "why_tests_cant": "deadlock freedom over all interleavings of three processes and two networks", "anchors": ["proxy/src/proxy.rs: start_conversation, handle_client_event, handle_server_event", "src/stream.rs: Stream::next, Stream::flush", "src/client.rs: Client", "src/server.rs: Server"]}
{"id": "C59", "title": "The clients of a proxy process do not interfere", "statement": "In a process with any services and any number of clients, what happens in the conversation of a client is what happens if it is the only one: it depends only on what the peers of this conversation do, and its connections are those of the handshakes that the configuration asks for. A step of one task, also if it fails or panics, changes no other task and no accept loop. What is possible for a client depends on its own task only, as long as a worker thread is left.", "quantifier": "every number of services and clients, every interleaving of accepting, connecting, handshakes and the actions of all peers, every outcome of them", "why_tests_cant": "quantifies over all interleavings of arbitrarily many tasks", "anchors": ["proxy/src/main.rs: main, handle_service, handle_client", "proxy/src/proxy.rs: accept_client, connect_to_server"]}
{"id": "C60", "title": "A client that does not finish its TLS handshake does not keep others from being served", "statement": "As long as a worker thread is left, a service can accept another client, whatever its other clients do.", "quantifier": "every number of services and clients, every interleaving and outcome of accepting, handshakes and conversations", "why_tests_cant": "depends on a client that does nothing for ever", "anchors": ["proxy/src/main.rs: handle_service", "proxy/src/proxy.rs: accept_client"]}
{"id": "C61", "title": "A client that ends its TLS connection does not disturb the other clients", "statement": "Whatever clients or servers do on their connections, including ending them with close_notify, the other clients of the process are served and new ones accepted.", "quantifier": "every number of services, clients and worker threads, every interleaving of the actions of all peers", "why_tests_cant": "needs as many such clients as worker threads", "anchors": ["proxy/src/main.rs: main, handle_service, handle_client", "proxy/src/proxy.rs: start_conversation", "src/stream.rs: decrypt"]}
{"id": "C62", "title": "On streams, dialogues stay in step and never hang", "statement": "C52 and C53 for the users of streams, with or without TLS: the commands, authenticate data and DONE that next returns to the user of the server are a beginning of what the client said, in order; the answers that next returns to the user of the client are a beginning of the answers accepted from the user of the server, and at most one is missing; the user of the client gets neither a rejected command nor an unexpected continuation request, and no user gets an error of the protocol. If both users wait in next and nothing is on the way, everything was delivered and both sides agree whose turn it is. Provided that the user of the server is orderly and that rustls takes all input.", "quantifier": "every schedule of calls, reads, partial writes, socket failures and cancellations, every lawful codec and record layer", "why_tests_cant": "quantifies over all interleavings of two users, two streams and the network", "anchors": ["src/stream.rs: Stream::next, Stream::flush", "src/client.rs: Client", "src/client_send.rs: ClientSendState", "src/server.rs: Server"]}
{"id": "C63", "title": "Streams whose users only call next come to rest with everything delivered", "statement": "If both users of streams, with or without TLS, do nothing but call next again and again, then after finitely many steps both wait in next and nothing is on the way, in whatever order the steps are made and however the bytes are split; before that a step is always possible. Then everything the client has said was returned to the user of the server and every answer to the user of the client; if all commands are regular, each was delivered, in order and once, and reported as sent. Provided that max_command_size is not zero and that rustls takes all input.", "quantifier": "every history of the users, every order of next calls, reads and partial writes, with no fairness assumption; every lawful codec and record layer", "why_tests_cant": "termination of every infinite schedule", "anchors": ["src/stream.rs: Stream::next", "src/client.rs: Client::next", "src/server.rs: Server::next"]}
{"id": "C64", "title": "Through the proxy, dialogues stay in step and never hang", "statement": "C62 with the proxy between the client and the server, each connection with or without TLS: the commands, authenticate data and DONE that next returns to the user of the server are a beginning of what the client said, in order; the answers that next returns to the user of the client are a beginning of the answers accepted from the user of the server, and at most two are missing; the user of the client gets neither a rejected command nor an unexpected continuation request, and no user gets an error of the protocol; the proxy neither panics nor spins. If everything waits and nothing is on the way, everything was delivered and both users agree whose turn it is. Provided that the user of the server is orderly, that all messages survive both connections and that rustls takes all input.", "quantifier": "every schedule of calls, reads, partial writes, socket failures and cancellations on all four streams, every lawful codec and record layer", "why_tests_cant": "quantifies over all interleavings of two users, the proxy, four streams and two networks", "anchors": ["proxy/src/proxy.rs: start_conversation, handle_client_event, handle_server_event", "src/stream.rs: Stream::next", "src/client.rs: Client", "src/server.rs: Server"]}
{"id": "C65", "title": "Through the proxy, everything comes to rest with everything delivered", "statement": "C63 with the proxy between the client and the server, each connection with or without TLS. If both users do nothing but call next again and again, then after finitely many steps everyone waits for input and none is on the way, in whatever order the steps are made and however the bytes are split; before that a step is always possible. This holds whatever the users did before. For the systems of C64 whose sockets at the proxy were not closed and did not fail, the proxy is then still in the conversation, everything the client has said was returned to the user of the server and every answer to the user of the client, and both agree whose turn it is; if all commands are regular, each was returned to the user of the server, in order and once. The proxy ends the conversation only if one of its sockets was closed or failed. Provided that max_command_size of the server is not zero and that rustls takes all input.", "quantifier": "every history of the users, every order of next calls, polls of the proxy, reads and partial writes, with no fairness assumption; every lawful codec and record layer", "why_tests_cant": "termination of every infinite schedule of two users, the proxy, four streams and two networks", "anchors": ["proxy/src/proxy.rs: start_conversation, handle_client_event, handle_server_event", "src/stream.rs: Stream::next", "src/client.rs: Client::next", "src/server.rs: Server::next"]}
{"id": "C66", "title": "The example clients do what they are meant to do with any server", "statement": "client.rs, client_authenticate.rs and client_idle.rs panic only if next fails: their assertions and unwraps hold. The greeting comes first, and the command is enqueued once, as soon as it is there. client_authenticate.rs supplies data once for each time the server asks, first the name, then the password, then the cancellation, and ends exactly when the final status is there. client_idle.rs ends exactly when, after a rejection of IDLE or after DONE was sent, a status with the tag of IDLE is there. client.rs never ends by itself.", "quantifier": "every server, every behaviour of the socket, every input of the user, every lawful codec", "why_tests_cant": "quantifies over all inputs of a server and all timings", "anchors": ["examples/client.rs: main", "examples/client_authenticate.rs: main", "examples/client_idle.rs: main"]}
{"id": "C67", "title": "The example servers do what they are meant to do with any client", "statement": "server.rs, server_authenticate.rs and server_idle.rs panic only if next fails: their assertions and unwraps hold. The greeting is sent first. server.rs answers every regular command, in order, with one NO with its tag, and does nothing else. server_authenticate.rs answers every regular command, every AUTHENTICATE and all authenticate data, once and in order; server_idle.rs answers DONE, and its other calls are exactly those that the lines of the user ask for. Every response of the others answers something that was asked before, with the right tag and in the right phase, whatever the random numbers and the user. None of them ends by itself. server.rs and server_authenticate.rs ignore IDLE, and after it nothing that they receive is reported any more.", "quantifier": "every client, every behaviour of the socket, every input of the user, every random choice, every lawful codec", "why_tests_cant": "quantifies over all inputs of a client and all timings", "anchors": ["examples/server.rs: main", "examples/server_authenticate.rs: main", "examples/server_idle.rs: main"]}
{"id": "C68", "title": "The example client without a stream does what it is meant to do with any server", "statement": "client_std.rs panics only if a read, a write or next fails: its assertions hold, and there is no output before the greeting. The greeting comes first, and LOGIN is enqueued once, as soon as it is there. The bytes on the socket are LOGIN or a beginning of it, and all of LOGIN once it is reported as sent; they are what the client handed out, except for what is just being written. When the server has closed the connection the program does not end: it goes on to read and to call next for ever, and each time is exactly where it was before.", "quantifier": "every server, every portioning of the input, every failure of a read or a write, every lawful codec", "why_tests_cant": "quantifies over all inputs of a server; the last part is about an infinite execution", "anchors": ["examples/client_std.rs: main", "src/client.rs: Client::next"]}
{"id": "C69", "title": "Data and statuses of the server are delivered during dialogues, too", "statement": "For a Client and a Server connected by two streams, with or without TLS, any use of regular commands, literals, AUTHENTICATE and IDLE by the client (C62), a server whose user is orderly, and messages that are decoded to themselves: the data and statuses that the user of the client receives are always a beginning of those that the user of the server enqueued (besides the answers to AUTHENTICATE and IDLE), in order and unchanged. If both users wait in next and nothing is on the way, the user of the client received all of them; so everything enqueued is delivered once both users only call next. A status with the tag of a command is reported after the last event of this command.", "quantifier": "for all executions of the system, with or without TLS", "why_tests_cant": "quantifies over all interleavings of two users, two streams and a network, and over all positions of the data within the dialogues", "anchors": ["src/server.rs: Server::{enqueue_data, enqueue_status, next}", "src/client.rs: Client::next"]}
{"id": "C70", "title": "The example client and the example server work together", "statement": "client.rs is connected to server.rs, and the messages they exchange are decoded to themselves. Then neither program ever ends or panics, and every session comes to rest after finitely many steps, however the programs are scheduled and the bytes are split. At rest both programs wait for bytes; LOGIN was enqueued once, received by the server once, answered with NO once, and the client got this answer once, after LOGIN was reported as sent.", "quantifier": "every schedule of both programs, every portioning of the bytes, every lawful codec", "why_tests_cant": "quantifies over all interleavings of two programs and a network, and over infinite executions", "anchors": ["examples/client.rs: main", "examples/server.rs: main", "src/stream.rs: Stream::next", "src/client.rs: Client::next", "src/server.rs: Server::next"]}
{"id": "C71", "title": "The example client and the example server for AUTHENTICATE work together", "statement": "client_authenticate.rs is connected to server_authenticate.rs, and the messages they exchange are decoded to themselves. As long as the client runs, neither program panics and some step is possible: the session is never stuck. The client ends only after the server said OK with the tag of the command: then it has sent AUTHENTICATE and, for each request for data, first the name, then the password, then the cancellation; the server has heard all of this, in order; its answers are as many requests as there was data, and then OK; and the client got exactly these answers. If the client never ends the server asks for data without end, and rand::random() returns true again and again; such a session exists, because the server does not take the cancellation as an end.", "quantifier": "every schedule of both programs, every portioning of the bytes, every random choice, every lawful codec", "why_tests_cant": "quantifies over all interleavings of two programs and a network, and over infinite executions", "anchors": ["examples/client_authenticate.rs: main", "examples/server_authenticate.rs: main", "src/stream.rs: Stream::next", "src/client.rs: Client::next", "src/server.rs: Server::next"]}
{"id": "C72", "title": "The example client and the example server for IDLE work together", "statement": "client_idle.rs is connected to server_idle.rs, and the messages they exchange are decoded to themselves. As long as the client runs neither program panics. Without new lines of the users every session comes to rest after finitely many steps, unless the client ends. At rest both programs wait for bytes, IDLE was heard once, the client has got data once for each time the user of the server entered expunge, and either IDLE was not answered, or it was accepted, or it was rejected, and the client knows the answer. The client ends only after IDLE was accepted, DONE was heard and the server said OK; then it has got data exactly as often as expunge was entered before DONE, and this OK last. A client whose IDLE was rejected never ends: it waits for a second status that the server does not send.", "quantifier": "every schedule of both programs, every portioning of the bytes, all lines of both users at any time, every lawful codec", "why_tests_cant": "quantifies over all interleavings of two programs, two users and a network, and over infinite executions", "anchors": ["examples/client_idle.rs: main", "examples/server_idle.rs: main", "src/stream.rs: Stream::next", "src/client.rs: Client::next", "src/server.rs: Server::next"]}
{"id": "C73", "title": "On streams, client and server agree about rejected literals", "statement": "C44 for the users of streams, with or without TLS, with any mixture of commands whose literals the server accepts and commands with a synchronizing literal that is too long for it, and a user of the server that sends no continuation requests and a tagged BAD only for commands it got: next tells the user of the server about each command of the client, in order, with the command or with an error that holds exactly the bytes sent before the literal that is too long; next reports to the user of the client for each command, in order, that it was sent, or that it was rejected with the BAD of the server, as the server treated it. Otherwise next reports to the user of the client only the greeting, and the data and statuses of the user of the server: a beginning of them, in order; and no errors. If both users wait in next and nothing is on the way, the user of the server was told about all commands, and all of them were reported to the user of the client.", "quantifier": "for all executions of the system, with or without TLS, all positions of the literals", "why_tests_cant": "quantifies over all interleavings of two users, two streams and a network, and over all portionings of the bytes", "anchors": ["src/client_send.rs: ClientSendState", "src/server.rs: Server::next", "src/stream.rs: Stream::next"]}
{"id": "C74", "title": "Through the proxy, all sides agree about rejected literals", "statement": "A client and a server talk through the proxy, each connection with or without TLS, with any mixture of commands whose literals are accepted, commands with a synchronizing literal that is too long for the proxy, and commands with one that is too long for the server; the user of the server sends no continuation requests and a tagged BAD only for commands it got. Then next tells the user of the server about each command that the proxy accepts, in order, with the command or with an error that holds exactly the bytes before the literal that is too long for the server. next reports each command to the user of the client, in order, as sent, or as rejected with the BAD of the proxy, as the proxy treated it. A command that the server rejects was reported as sent, and the proxy tells the client about it by a BAD with the tag of the command and its own text. What the client is told is a beginning of the responses of the user of the server (without what the proxy does not support), in order, with these BADs between them, one for each rejected command, in order; nothing else and no errors. If everything waits and nothing is on the way, the user of the server was told about all commands that the proxy accepts, each command was reported to the user of the client, and there is a BAD for each command that the server rejected; if the proxy rejected no command, all of this has reached the user of the client. Neither side nor the proxy panics or hangs, and the proxy ends the conversation only if one of its sockets is closed or fails.", "quantifier": "for all executions of the system, with or without TLS, all positions of the literals", "why_tests_cant": "quantifies over all interleavings of two users, the proxy and two networks, and over all portionings of the bytes", "anchors": ["proxy/src/proxy.rs: handle_server_event", "src/client_send.rs: ClientSendState", "src/server.rs: Server::next"]}
{"id": "C75", "title": "After encrypt has failed, a stream with TLS goes on without losing anything else", "statement": "C48 without the condition that nothing was refused: at any time, what a stream with TLS has written to the socket, its write buffer and the records that wait in rustls are together records that a peer with the matching key opens to the outputs of the state, in order: each output as a whole if encrypt accepted it, and a proper beginning of it if encrypt refused it. While next only waits for input, and when flush succeeds, all of this has been written. An output that fits the buffer limit can be refused as well, if the records of an output that was refused before still wait in rustls; nothing of it is ever sent, but the client reports the command as sent.", "quantifier": "for all executions of the stream, any State, any record layer, any number of refused outputs", "why_tests_cant": "needs outputs above the buffer limit of rustls together with partial writes, cancelled futures and further calls after an error", "anchors": ["src/stream.rs: encrypt", "src/stream.rs: Stream::next", "src/stream.rs: Stream::flush"]}
{"id": "C76", "title": "A peer cannot make a stream with a server hold arbitrarily many bytes", "statement": "Whatever the peer sends, and however slowly it reads, the bytes that a stream with a server holds (read and not yet decoded, or waiting to be written because of what the peer sent) stay below a bound that depends only on the options of the server and on the number of bytes given by one read of the socket.", "quantifier": "for all executions of a stream with a server, any options, any portioning of the bytes", "why_tests_cant": "needs a bound on all reachable states; tests stop long before memory is exhausted", "anchors": ["src/stream.rs: Stream::next", "src/server.rs: Server::progress_receive", "src/receive.rs: ReceiveState::next"]}
{"id": "C77", "title": "The proxy uses the addresses and the encryption of its configuration", "statement": "The address that a service binds, and the address that it connects to, is read back (split at the last colon, the rest parsed as u16) as exactly the host and the port of the configuration, whatever characters the host has; so different hosts or ports have different addresses. A port that is missing is 993 with TLS and 143 without. What is printed about a service at its start tells encryption, host and port of both sides. Every conversation of a process belongs to a configured service whose address could be bound, there is TLS with the client if and only if its bind says so, and TLS with the server if and only if its connect says so.", "quantifier": "for all configurations, all hosts and ports, all executions of the process", "why_tests_cant": "quantifies over all strings as hosts, and over all interleavings of services and clients", "anchors": ["proxy/src/config.rs: Bind::addr_port", "proxy/src/config.rs: Connect::addr_port", "proxy/src/main.rs: main", "proxy/src/proxy.rs: Proxy::bind"]}
{"id": "C78", "title": "After an upgrade to TLS only what was received over TLS is reported", "statement": "A connection starts without TLS; its owner takes the TcpStream out of the Stream (expose_stream, for STARTTLS), does the handshake, and goes on with a new Stream with TLS and the same client or server. Then every message and every error that next reports after the upgrade consists of bytes that were received over TLS, and everything that was handed out for sending before the upgrade was written before it.", "quantifier": "for all executions before and after the upgrade, any portioning of the bytes, any record layer", "why_tests_cant": "needs plaintext that arrives at the moment of the upgrade; ordinary peers send nothing there", "anchors": ["src/stream.rs: From<Stream> for TcpStream", "src/stream.rs: Stream::tls", "src/stream.rs: Stream::next", "src/receive.rs: ReceiveState"]}
{"id": "C79", "title": "Full sockets do not make streams wait for each other", "statement": "Two streams (or two streams and the proxy between them) are connected by sockets that hold only a limited number of bytes in each direction, at least one. If the users call next, and not both of them are in flush, then the system never gets stuck: it moves only finitely often, in any order of its steps, and when no step is possible anymore then everyone waits for input, nothing is on the way, and everything that was said was heard. With the proxy in between this holds even if both users are in flush. Without the proxy, two users in flush can wait for each other forever.", "quantifier": "for all capacities, all executions before, all orders of steps and portions of bytes, with and without TLS", "why_tests_cant": "the buffers of the sockets have to be full in both directions at the same time; tests use small messages", "anchors": ["src/stream.rs: Stream::next", "src/stream.rs: Stream::flush", "src/stream.rs: write", "proxy/src/proxy.rs: start_conversation"]}
{"id": "C80", "title": "A server cannot make a stream with a client hold arbitrarily many bytes", "statement": "Whatever a server sends, the bytes that a stream with a client holds (read and not yet decoded, or waiting to be written) are bounded: what waits to be written, together with what was written before, is at most what the user of the client asked to be sent (commands, authenticate data, DONE); and what waits to be decoded, while the stream waits for input, is the beginning of one message whose size is bounded.", "quantifier": "for all executions of a stream with a client, any portioning of the bytes", "why_tests_cant": "needs a bound on all reachable states; tests stop long before memory is exhausted", "anchors": ["src/stream.rs: Stream::next", "src/client.rs: Client::next", "src/receive.rs: ReceiveState::next", "src/client_send.rs: ClientSendState"]}
{"id": "C81", "title": "A client with TLS is served with the certificates and the key of the files of the configuration", "statement": "The certificate chain is loaded if and only if its file can be read to the end, and consists of all certificates of the file in order; the key is loaded if and only if its file can be read to the end and holds exactly one PKCS#8 key. Otherwise there is an error that names the file and the first failure, or the number of keys found. If a client of a service with TLS is served then the two files of this service, each used for its own purpose, held a chain and a key that rustls accepts at the time when this client was accepted. While the files of a service are not usable none of its clients is served, and the service goes on to listen.", "quantifier": "for all contents of files (which can change over time), all configurations, all executions of the process", "why_tests_cant": "quantifies over all files with any sequence of items and errors, and over all interleavings of services and clients", "anchors": ["proxy/src/util.rs: load_certificate_chain_pem", "proxy/src/util.rs: load_leaf_key_pem", "proxy/src/proxy.rs: accept_client", "proxy/src/main.rs: handle_service"]}
{"id": "C82", "title": "A peer cannot make the proxy hold arbitrarily many bytes for the other peer", "statement": "While one peer takes nothing from its socket, what the proxy holds for it stays bounded, whatever the other peer sends. At least, the proxy holds nothing but what it has to pass on: the bytes written to the server or waiting to be written are at most those of the commands, authenticate data and DONEs received from the client; those for the client are the greeting and whole responses that were received from the server or answer the announcement of a literal.", "quantifier": "for all executions of the proxy, any portioning of the bytes", "why_tests_cant": "needs a peer that stops reading for a long time, and a bound on all reachable states", "anchors": ["proxy/src/proxy.rs: start_conversation", "proxy/src/proxy.rs: handle_client_event", "proxy/src/proxy.rs: handle_server_event", "src/stream.rs: Stream::next"]}
{"id": "C83", "title": "The server is told only commands that the user of the client enqueued", "statement": "The commands that the user of the server is told are among those that the user of the client enqueued, in the same order, each at most once, directly or through the proxy; in particular the content of a literal (a mail for example, which is not chosen by the user of the client) never becomes a command.", "quantifier": "for all executions of client and server on streams with or without TLS, also with the proxy between them; all contents of literals", "why_tests_cant": "quantifies over all contents and lengths of literals (the limits of the proxy are 25 MiB) and all ways to split the bytes", "anchors": ["src/server.rs: Server::progress_receive", "src/receive.rs: ReceiveState::discard_message", "src/client_send.rs: CommandState::push_to_buffer", "proxy/src/proxy.rs: handle_client_event"]}
{"id": "C84", "title": "A panic is the last thing that happens", "statement": "When the state of a stream panics, its TLS connection is broken or its decrypt does not end, when an example program panics (an unwrap of the result of next, of I/O or an assertion fails), and when a session of the proxy panics or hangs, then nothing happens afterwards: nothing is read or written, no event is reported and no method is called; the same after a session or a program has ended.", "quantifier": "for all executions of any state on a stream (with or without TLS), of any program, of client_std.rs and of the proxy", "why_tests_cant": "is about all points at which a panic can happen and about everything after it", "anchors": ["src/stream.rs: Stream::next", "examples/client_std.rs: main", "examples/client.rs: main", "proxy/src/proxy.rs: start_conversation"]}
{"id": "C85", "title": "Every client of the proxy gets exactly one task, and it is its own", "statement": "For each service the process has exactly one task per client that was accepted (with TLS: whose handshake succeeded), in that order; failed accepts, unusable certificates and failed handshakes start none. The conversation of a task is on the TLS connection of exactly its client, and with the server connection that was established for it; a task that fails or panics stays as it is, and is never given to another client. Nothing happens in a task without a client. The accept loop never ends: as long as a worker thread is left, the next client of each service gets its task. Failed accepts change nothing, however often they happen.", "quantifier": "for all configurations, all executions of the process with any number of services, clients and interleavings", "why_tests_cant": "quantifies over all interleavings of accept loops and tasks, with failures at every point", "anchors": ["proxy/src/main.rs: handle_service", "proxy/src/main.rs: handle_client", "proxy/src/proxy.rs: accept_client", "proxy/src/proxy.rs: connect_to_server"]}
{"id": "C86", "title": "A peer cannot make the proxy hold arbitrarily many bytes that it has received", "statement": "Whatever a client or a server sends, in whatever portions, the bytes that the proxy has received and cannot yet pass on stay bounded: while the proxy waits for a peer, nothing waits to be written to this peer, everything that was read from it was given to the client or server of the proxy, except for less than a TLS record, and what these hold is the beginning of one message whose size is bounded (for commands by the 25 MiB + 64 KiB of the options of the proxy).", "quantifier": "for all executions of the proxy with all peers, with and without TLS, any portioning of the bytes", "why_tests_cant": "needs a bound on all reachable states; tests stop long before memory is exhausted", "anchors": ["proxy/src/proxy.rs: start_conversation", "src/stream.rs: Stream::next", "src/server.rs: Server::next", "src/receive.rs: ReceiveState::next"]}
{"id": "C87", "title": "Each received byte is decoded only a bounded number of times", "statement": "The work of a server for decoding is linear in what it receives: each byte is given to the decoder at most a fixed number of times. At least, the decoder is called at most once per received line end, never with more bytes than the size allowed for commands, and without literals no byte is given to it twice; nothing else is ever asked of the decoder. A client, too, decodes at most everything received once per line end received.", "quantifier": "for all executions of a server (and of a client), all codecs and options", "why_tests_cant": "is a bound on the cost of all inputs; tests with small messages do not show quadratic work", "anchors": ["src/receive.rs: ReceiveState::progress_line", "src/server.rs: Server::progress_receive"]}
{"id": "C88", "title": "The search for line ends does not depend on how the input is cut", "statement": "However the received bytes are cut and however often next is called, the search for line ends is linear in them: a client looks at each received byte at most once, and a server at most twice, and at most once as long as no authentication was finished.", "quantifier": "for all executions of a client and of a server, all codecs and options, all ways to cut the input", "why_tests_cant": "is a bound on the cost of all ways to cut all inputs; a search that starts again is not visible in the results", "anchors": ["src/receive.rs: ReceiveState::next", "src/receive.rs: ReceiveState::progress_line", "src/receive.rs: find_crlf", "src/receive.rs: ReceiveState::change_codec"]}
{"id": "C89", "title": "A peer cannot make the library ask for much more memory than it has sent", "statement": "The capacity of the read buffer that is asked for when a literal is announced exceeds what the peer has sent by no more than a limit that the user has chosen: max_literal_size for the server, and a limit for the client (in the proxy: 25 MiB for its clients, and a limit for the server).", "quantifier": "for all executions of a client, of a server and of the proxy, all codecs and options", "why_tests_cant": "needs a bound over all inputs; the memory that is asked for is not visible in the results", "anchors": ["src/receive.rs: ReceiveState::start_literal", "src/server.rs: Server::progress_receive", "src/client.rs: Client::progress_receive"]}
