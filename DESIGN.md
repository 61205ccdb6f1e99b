# Formal model of imap-next (duesee/imap-flow) in Lean 4

## Layout

* `lean/Verif/Model/*.lean` – the model, function by function; every definition cites `/repo` file and lines.
* `lean/Verif/Spec/*.lean` – small specifications used in theorem statements (stateless framing, histories, wire segments, ...).
* `lean/Verif/Proofs/*.lean` – helper lemmas. No statement of a property theorem refers to a definition made there.
* `lean/Verif/Props/*.lean` – one file per group of properties; only the property theorems (named after the property, e.g. `C01_...`) and their non-vacuity examples.
* `properties.jsonl`, `MANIFEST.json`, `seeded/LOG.jsonl` – property list, status, mutation log.

## Modelling decisions

* Bytes are `List UInt8`. `usize`/`u32` lengths are `Nat` (all arithmetic on them is bounded by buffer lengths; each subtraction or
  slice that could underflow/overrun in Rust is an explicit panic in the model, and is proved unreachable). Handle and tag counters
  are `UInt64` with wrap-around, as in the code.
* `&mut self` methods become functions returning the new state. `Result<T, Interrupt<E>>` becomes `Except (Interrupt E) T`.
  A Rust panic (`assert!`, `unreachable!`, `unwrap`, slice range) is an explicit `Except.error (p : Panic)` result.
* `loop`s become well-founded recursion; Lean's termination check is the termination proof.
* imap-codec / imap-types are not part of the repository. They are a parameter `L : Lib` (encoders, decoders, text validators).
  Theorems that need it assume the contract `L.Lawful` (or per-message round-trip predicates), which is proved satisfiable by a concrete codec.
* Tokio, TCP, rustls: the socket is a nondeterministic environment (how many bytes a read/write transfers, which `select!` branch wins,
  where a future is dropped). rustls is a parameter with its documented contract.

## Plan per property

| property | model | proof |
|---|---|---|
| C01 | Client | `next` commutes with appending input; NeedMoreInput is a resumable suspension; reference run |
| C02 | Server | as C01 on the reception projection |
| C03 | ReceiveState, Client, Server | history invariant: consumed ++ buffered = input |
| C04, C05, C06 | ReceiveState | refinement to the stateless framing specification |
| C07, C08 | Client, Server | invariant of all reachable states; panics are explicit in the model |
| C09 | Client, Server | well-founded recursion |
| C10 | Client, Server | refinement to the stateless framing specification |
| C11..C17 | Client | history invariant relating enqueued commands, outputs and events |
| C18 | Client | case analysis, refinement |
| C19, C20 | Server | history invariant |
| C21, C22 | Server | single call theorem over all states |
| C23, C24 | Server | phase computed from the history of observations = guard |
| C25 | Client, Server | true for the client; false for the server (counterexample), partial |
| C26 | Server | false (counterexample), partial under "message fits in max_command_size" |
| C27 | Handle | invariant over interleavings, UInt64 |
| C28 | TagGenerator | injectivity of the decimal format, interleavings |
| C29..C32 | Stream over an abstract State, nondeterministic socket, cancellation | history invariant; C31 false (counterexample), partial |
| C33, C34 | decrypt/encrypt over the documented rustls contract | C33 false on close_notify (divergence proved), C34 false above the buffer limit; partial otherwise |
| C35, C36, C37, C44 | Client + Server + two byte channels | global invariant |
| C38..C42, C45, C46 | proxy: filtering, handlers, two streams driven by one loop | joint invariant of both connections; C39, C40, C42, C45, C46 false (counterexamples), partial |
| C47, C48, C49 | the whole stream with TLS | history invariant over the results of decrypt/encrypt; C49 false (close_notify), partial |
| C57, C58 | Client + proxy + Server, four streams (TLS or not) + two networks | C51 on both connections, linked by C41 and C42 |
| C50, C51 | Client + Server + two streams (TLS or not) + network | simulation of the system of C35..C37; user-level claims from it |
| C62, C63 | the same system | C52..C54 carried over by the simulation of C50; C63: weights of C54, then bytes on the wires, then idle users |
| C69 | the same system | what the client decoded, by the same traces, is all that the server sent (`Proofs/DialogueTold.lean`) |
| C64 | the system of C57 | C52 on both connections at once, coupled by the handlers of the proxy (`Proofs/RelayBound.lean`) |
| C65 | the system of C57, users stop | the measures of C63 on both connections plus what the proxy has yet to forward (`Proofs/RelayRest.lean`) |
| C66 | an example client with any server | invariant on the trace of the client (`Proofs/ExampleClients.lean`) |
| C67 | an example server with any client | invariant on the trace of the server, which is orderly (`Proofs/ExampleServers.lean`) |
| C68 | the example client without a stream, with any server | the invariant of C66 and `Client.next_again` (`Proofs/ClientStd.lean`) |
| C70 | an example client with an example server | C62, C63 and C69 with the invariants of C66 and C67 (`Proofs/SessionLive.lean`) |
| C71 | the example programs for AUTHENTICATE | the same (`Proofs/SessionAuth.lean`); the number of calls is bounded by the number of requests for data |
| C72 | the example programs for IDLE | the same (`Proofs/SessionIdle.lean`); the number of calls is bounded by the number of lines entered |
| C73 | C44 on streams, hypotheses about the users only (`MixedUse`); also what the client's user is told: a beginning of the data and statuses of the server's user, no errors | the plain system makes the same calls (C50); each outcome of the server is returned by `next` (`Proofs/StreamReject.lean`); waiting streams are starved (`StreamNet.waiting_starved`); `Agreed` also counts what the client reports (`Proofs/NetReject.lean`), `MixedUse.net` turns what the users did into the hypotheses of C44, by induction over the calls (`Proofs/NetMixed.lean`, `Proofs/StreamMixed.lean`) |
| C74 | C73 through the proxy, hypotheses about the users only (`MixedRelay`): the proxy rejects literals for the client, the server for the proxy; what the client is told is an interleaving of the server's responses with one BAD for each command that the server rejected | by induction over the run, both connections are runs of C73 (`Relay.mixed_users`, `Relay.mixed` in `Proofs/RelayMixed.lean`): the server's user is polite on the second connection, so that what the proxy passes on is polite on the first one |
| C75 | C48 with refused outputs: whole outputs and proper beginnings of the refused ones (`Accepted`, `Spec/Accepted.lean`); an output that fits can be refused (`C75_fitting`) | the invariant of C48 with the records that wait in the connection (`FullStream.run_push`, `Proofs/Accepted.lean`) |
| C76 | false of the code (`C76_idle`, `C76_unwritten`); what holds: `C76_waiting` and `C76_since` for every run without TLS, `C76_partial` for runs in which no `read` completes while output is written or IDLE waits (`FullStream.modest`, `Spec/Held.lean`); the same with TLS and one record more: `C76_tls_waiting`, `C76_tls_since`, `C76_tls_partial`, for record layers with a maximal size of records (`RecordLayer.Sized`, `Spec/HeldTls.lean`); `C76_waits`: what it means that IDLE waits (`Spec/IdleUnanswered.lean`) | invariant of the steps of the stream (`FullStream.step_held`, `Proofs/Held.lean`; `FullStream.step_quiet`, `Proofs/HeldTls.lean`); the counterexamples by induction on the number of rounds |
| C77 | `Model/Config.lean`: configuration and start of the proxy; reading an address as std does (`readAddress`, `Spec/Config.lean`) | digits read back (`digits16_decimal`); C59 for the conversations |
| C78 | `Model/Upgrade.lean`: a stream is taken apart and a new one with TLS is made for the same client or server; false of the code (`C78_injected_server`, `C78_injected_client`, `C78_glued`); exactly what is reported (`C78_server`, `C78_client`) and written (`C78_output`) | C03 for the calls before and after the upgrade, C47 and C48 for the second stream |
| C79 | the systems of C63 and C65 with a capacity for each direction (`Spec/Sockets.lean`); `C79_flush`: two users in `flush` can wait for each other, whatever the capacities are | every state without a step within the capacities is at rest (`Proofs/Sockets.lean`); then C63 and C65 |
| C80 | false of the code (`C80_line`, `C80_unbounded`); what holds: `C80_partial` (while waiting, only the beginning of one message is held), `C80_tls_partial` (with TLS also less than a record), `C80_output`, `C80_written`, `C80_tls_written` (what is handed out is at most what the user asked for: `wanted`, `Spec/ClientHeld.lean`; with TLS times the growth of records, `Spec/Grows.lean`, also after `encrypt` has failed) | potential of the bytes not yet handed out (`Proofs/ClientUnsent.lean`); C10 for the message (`Proofs/ClientHeld.lean`) |
| C81 | `Model/Identity.lean`: loading of certificates and keys; what files hold (`Disk.Holds`, `Disk.Fails`, `Identity.Says`, `Spec/Identity.lean`), the files at the time when a client was accepted (`acceptedWith`) | case analysis over files; invariant of one service of the process: as many clients as acceptances with usable files (`Proofs/Identity.lean`) |
| C82 | false of the code (`C82_commands`, `C82_responses`); what holds: `C82_partial`, `C82_unwritten`, `C82_responses_unwritten`, `C82_tls_unwritten`, `C82_tls_responses_unwritten` (the proxy holds nothing but what it has to pass on; with TLS times the growth of records) | induction over rounds of a conversation (`Proofs/ProxyHeld.lean`); C41, C42 and C80 for the bound |
| C83 | false of the code (`C83_literal`, `C83_size`, `C83_proxy`); what holds: `C83_partial`, `C83_proxy_partial` | runs in the syntax of IMAP (`Spec/InjectionSamples.lean`); the mail for the proxy is a variable of 25 MiB, so the client is evaluated symbolically (`Proofs/Injection.lean`); C73 and C74 for what holds |
| C84 | items that end a stream, a program or a session (`Spec/Ends.lean`) | step by step: such an item is the last of its step and leaves a configuration without steps (`Proofs/Ends.lean`) |
| C85 | the clients that are ready, in order, and the possible lives of a task (`Spec/Clients.lean`: `readyClients`, `ownActs`, `Life`) | invariant over runs: number of tasks, life of each of them (`Proofs/Clients.lean`) |
| C86 | false of the code (`C86_idle`, `C86_line`); what holds: `C86_client_partial`, `C86_server_partial`, `C86_greeting_partial` (while the proxy waits for a peer it holds only the beginning of one message and less than a record) | C76 and C80 with TLS for the two streams of the proxy, whose calls are those of the ledger of C41 and C42 (`Proofs/ProxyReceived.lean`) |
| C87 | false of the code (`C87_quadratic`, `C87_default`, `C87_false`); what holds: `C87_partial` (one attempt per line end, of limited size), `C87_lines` (without literals no byte twice), `C87_decoder` (the decoders are asked nothing else), `C87_client_partial` (client: at most everything received, once per line end) | `Spec/Work.lean` lists the attempts of a trace; an invariant over the trace moves a frontier past one line end per attempt (`Proofs/Work.lean`); agreement of decoders is followed through `next` (`Proofs/WorkDecoder.lean`) |
| C88 | `C88_client` (each byte looked at at most once), `C88_server` (at most twice), `C88_server_once` (once if no authentication was finished), `C88_server_again` (a second search happens), `C88_looked` (the search depends on nothing else); in the proxy: `C88_proxy_client`, `C88_proxy_server` | `Spec/Search.lean` counts the bytes that `find_crlf` looks at, along the same calls as the model; invariants `Searching`, `SearchedOnce` compare the count with how far the buffer was searched |
| C89 | server: `C89_server`; client: false of the code (`C89_false`), what holds: `C89_client_partial`; in the proxy: `C89_proxy_client` (25 MiB), `C89_proxy_false`, `C89_proxy_server_partial` | `Spec/Reserve.lean` lists the capacities that `start_literal` asks for, along the same calls as the model (which has no memory) |
| C55, C56 | proxy with TLS on either connection | the invariants of C39..C46 hold for the plaintext; C56 false (close_notify), partial |
| C52, C53 | Client + Server, AUTHENTICATE and IDLE | traces of both sides: what was said/heard, answered/understood (`Spec/Dialogue.lean`) |
| C54 | Client + Server, users stop | the same traces; infinite fair schedules of `next` and deliveries (`Spec/Rest.lean`) |
| C59, C60, C61 | process with services, clients, worker threads | invariant of every task; C60, C61 false (counterexamples), partial |
| C43 | Options | invariant over setter sequences |

## Stream model

`Model/Stream.lean` models `Stream::next`, `Stream::flush` and the read/write helpers of `/repo/src/stream.rs` for a stream
without TLS, over an arbitrary `State` (`Machine`). The schedule is a list of actions chosen by the environment, and every
theorem holds for all schedules. Assumptions about tokio:

* a read that completes appends the bytes it took from the socket to the read buffer; a cancelled read takes nothing;
* a write that completes takes a prefix of the write buffer of any length, including 0;
* a future may be dropped whenever it is pending, and nothing else changes then.

`Model/Tls.lean` models `decrypt` and `encrypt`. Neither the source nor the documentation of `rustls` is available in the
sandbox. Its part of the model (see the header of that file) is written from general knowledge of the documented behaviour of
`rustls` 0.23. It is an assumption, and C33 and C34 including their counterexamples are only as good as it.

`Model/FullStream.lean` is the whole `Stream` with and without TLS. Without TLS it is `Model/Stream.lean` (`run_insecure`). In it
`decrypt` is a function with the results "ok", "fails" and "does not end". `decrypt_ok`, `decrypt_broken` and `decrypt_hang` show
that these are the results of the loops in `Model/Tls.lean`, if `read_tls` takes at least one byte (`0 < readSize`). What `rustls`
does when it is used after an error of `process_new_packets` is not modelled: the stream stops there.

`Model/Upgrade.lean` is the upgrade of a connection to TLS with `From<Stream> for TcpStream` (feature `expose_stream`).  The handshake is
not modelled: the upgrade gives a connection in any state.  `Stream::stream_mut` (the same feature, "for debug purposes") is not modelled.

## Network model

`Spec/Net.lean` connects a client and a server by two channels. A channel is a list of bytes; a step of the environment moves
any number of bytes from the front of a channel into the other side. Both users make any calls in any order. Theorems C35, C36,
C37 and C44 hold for every list of such steps. They assume the codec round trip only for the messages of the run
(`ServerMessage.RoundTrip`, `Command.RoundTrip`); for commands it also says that each line before a literal announces it.
C44 also assumes that the user of the server sends no continuation requests and no tagged BAD for a command that was not
delivered to it (`PoliteServer`). Without that the client takes such a response for the answer to its literal.

## Proxy model

`Model/ProxyUtil.lean` (`/repo/proxy/src/util.rs`) and `Model/Proxy.lean` (`/repo/proxy/src/proxy.rs`) model
`start_conversation` and both event handlers. Each of the two streams is that of `Model/FullStream.lean`, with or without TLS. The
environment chooses which branch of `select!` is polled and what the sockets do. When a branch completes, the other future is
dropped and the handler runs. `Spec/Proxy.lean` says what was received and what should be forwarded without using the functions
of the proxy. `Lib.Proxyable` is what the proxy needs from `imap-types` beyond `Lib.Lawful`: its three fixed texts are valid, and
a received continuation request stays valid when its code is replaced. C38..C46 are about the plaintext; the theorems named
`_socket` and C55 relate it to the bytes on the sockets.

## Services

`Model/Service.lean` models `handle_service`, `handle_client`, `accept_client` and `connect_to_server`: any number of services, each with
an accept loop and one task per client, on a number of worker threads. The environment decides the results of sockets, TLS handshakes and
loading certificates (the last by the content of the files, `Model/Identity.lean`, C81). A hung conversation (C56) occupies a worker thread for ever, and a step is possible only if one is left. This is
optimistic: it assumes that the other worker threads take over everything else, including polling the sockets. Not modelled: the
command line, the TOML syntax of the configuration file (its content is, `Model/Config.lean`), logging, the content of handshakes. `C59_conversation` reduces every conversation
to a run of `Model/Proxy.lean`.

## Two streams

`Spec/StreamNet.lean` connects the two stream models by two byte channels that transport what is written to the sockets. The users
call `next`, `flush` and the methods of the client and the server (not `next` and `enqueue_input` of these, which `Stream` calls).
C50 proves that every run is a run of the system of `Spec/Net.lean`; C51 draws the conclusions for the users. `Handshaken` is the
state of both TLS connections after the handshake: matching keys, nothing in the buffers.

## Client, proxy, server

`Spec/Relay.lean` puts the proxy between the streams of a client and of a server, with two byte channels on each side. C57 and C58 are
about what the two users pass to their streams and get back. The proof views the run as two runs of the system of `Spec/StreamNet.lean`
(the user of the client and the proxy as user of its server; the proxy as user of its client and the user of the server) and links
them by C41 and C42 (`Proofs/Relay.lean`, `Proofs/RelayUse.lean`).

## Dialogues

`Spec/Dialogue.lean` reads off the two traces what the client has said and the server has heard, what the user of the server has
answered and the client has understood, and whose turn it is. C52 and C53 need `OrderlyServer`: the user of the server sends
continuation requests only to answer AUTHENTICATE and IDLE, one request for data at a time, does not finish AUTHENTICATE while data is
outstanding, and uses the right tags. `C52_early_finish`: otherwise authenticate data that is on the way is executed as a command,
because `authenticate_finish` does not wait for the data that `authenticate_continue` asked for.

## Rest

C62 and C63 (`Spec/StreamDialogue.lean`) are C52..C54 for the users of streams. The results of the users' calls (was an answer accepted,
which handle was returned) are taken from the run of the plain system with the same calls; C50 says that it exists. `Moves` are the
steps while the users only call `next`; C63 assumes no fairness, because every such step makes the system lighter.

C64 (`Spec/RelayDialogue.lean`) is C62 with the proxy in between. That the proxy uses its own server in an orderly way and its own client
with understandable messages is not assumed but proved, from what the users do; the two induction steps need each other, so the
invariant (`Relay.Bound`) is about both connections at once.

C79 (`Spec/Sockets.lean`) restricts these steps, and those of C65, to sockets that hold at most a given number of bytes per direction; a write
that does not fit is not possible. The theorems have the form "if no step is possible, then everyone waits and everything was delivered".
C65 (`Spec/RelayRest.lean`) is C63 with the proxy in between, again without fairness. What the proxy forwards makes the connection on
the other side heavier, so the measure is lexicographic: what the client has to send, what the proxy's server has to read, the far
connection, the near connection, the bytes on the wires, idle users. That the system comes to rest needs nothing about the users; that
everything was delivered then needs `RelayUsers` and that no socket of the proxy was closed or failed (`RelayOpen`).

C54 quantifies over infinite schedules (`FairSchedule`): only `next` on either side and deliveries of any number of bytes, each of the
four again and again. The measure that decreases is, in lexicographic order, what the client has to send, what the server has to read,
what the server has to send, what the client has to read. `C54_busy`: with `max_command_size = 0`, which the setter allows, the
server never waits for input. Of the messages the server generates itself only the continuation request for literals is assumed to be
understood (`ClearServer`); that it never rejects a literal is proved.

## Example programs

`Model/Examples.lean` models the programs in `/repo/examples` that use a stream: their variables, and what they do with an event and with
a line of the user. The environment chooses what the socket does, the lines, and the results of `rand::random()`. `Lib.Exemplary` says
that the fixed texts of the servers are valid; `CommandBody::login` is a constant (an arbitrary body). Not modelled: establishing the
connection, the output of `println!`, the thread that reads the standard input. Observations: after a rejection `client_idle.rs` waits for
a second status with the tag of IDLE, because the first one is in the event `IdleRejected` (`C66_idle` and the example after it);
`server.rs` and `server_authenticate.rs` do not answer IDLE and after it report nothing any more (`C67_stuck`).
`Model/ClientStd.lean` models `client_std.rs`, which calls `Client::next` with blocking reads and writes. Observation: at the end of the input
`read` returns no bytes, and the program repeats `read` and `next` for ever (`C68_spin`).

## Sessions of the example programs

`Spec/Session.lean` connects an example client to an example server. As long as both run their sockets do not fail; when one has ended
the other one may read the end of the file, or fail. The proof views a session as a run of the system of `Spec/StreamNet.lean` whose users
are the programs. That the server is orderly and that the messages are understood is not assumed but proved from `Conversant`, which says
of every message that the programs may exchange that it is decoded to itself.

* C71: `C71_endless`. `server_authenticate.rs` does not take a cancelled exchange as its end: it asks for data as long as `rand::random()`
  says so, and `client_authenticate.rs` answers each time with another cancellation. So there is an endless session.
* C72: `C72_rejected`. When IDLE was rejected `client_idle.rs` waits for another status with the tag of IDLE. `server_idle.rs` does not send
  one, so the client never ends.

## Tests of the model

`Spec/Imap.lean` is a codec for a subset of IMAP with the real syntax (`Imap.lawful`: it satisfies the contract of the codec).
`Spec/Upstream.lean` rebuilds the harness of `/repo/integration-test` (mock, client tester, server tester, two pipes), and
`Spec/UpstreamTests.lean` runs every test of `/repo/integration-test/tests` and `/repo/src/tests.rs` on the model, each with several
schedules of the sockets. These are evaluations of single cases. They are not evidence for the properties, but for the model: the expected
results come from the authors of the code. Lines of 10 MiB are shortened.

All tests succeed, with one remark: `send_large_messages_in_parallel` succeeds if `select!` prefers writing, but not with every schedule.
If the server reads the whole command before it has written its status, it reports `ResponseSent` and then `CommandReceived` with the
status still in the write buffer (the finding of C31), and the client of the test waits.

## Claims found to be false of the code

Each has a machine-checked counterexample; the property is kept with status `partial`.

* C25 (server): `C25_server_false`.
* C26: `C26_false`.
* C33: `C33_false`, `C33_diverges`: after a `close_notify`, `decrypt` loops forever (`Ok(0)` does not leave the inner loop).
  `C33_early_data`: plaintext that is in the connection when it is handed to `Stream::tls` is never passed on, and neither is
  anything after it.
* C34: `C34_false`, `C34_exact`: outputs above the buffer limit of `rustls` fail; `C34_truncates`: a part of them is sent later.
* C31: `C31_false`. `CommandSent` can be reported while bytes of the command are still in the write buffer. What holds instead:
  `C31_client`, `C31_server`, `C31_flush`, `C31_written`.  With TLS there is a second way (`C31_refused`): after rustls has
  refused output above its limit (C34) `next` returns an I/O error, and the following `next` reports the command as sent although
  the peer only ever gets its beginning.
  Even a command that fits the limit is then refused and lost, but reported as sent, as long as nothing drains rustls (`C75_fitting`).
* C76: `max_command_size` does not bound what a stream with a server holds.  While IDLE waits for `idle_accept` or `idle_reject` the
  server asks for more input without looking at the size of its buffer, so `next` of the stream reads as much as the client sends
  (`C76_idle`).  And `next` reads while output is pending: a client that announces literals that are too long, and never reads, makes
  the server add one BAD after the other to the write buffer (`C76_unwritten`; the user only has to call `next` again after the error).
* C78: the client or server keeps what arrived in plaintext before an upgrade to TLS, and reports it afterwards as if it had been
  received over TLS (`C78_injected_server`: a command sent together with STARTTLS; `C78_injected_client`: data sent together with
  the answer to it; `C78_glued`: the beginning of a line in front of the first command received over TLS).  The owner cannot notice:
  no method shows or clears the buffer, and everything `next` returned before is the same without the injected bytes.  `C78_lost`: what is in
  the write buffer is dropped by the upgrade, even if it was reported as sent (C31).
* C79: `C79_flush`. `flush` only writes. Two users that both call `flush` while the buffers of the sockets are full wait for each
  other forever, unlike two users in `next`. No capacity is large enough to exclude it. The proxy and the examples do not call `flush`.
* C80: a client has no limit for the size of a message: `Client::new` creates its `ReceiveState` without `max_message_size`
  (`/repo/src/client.rs:50-68`), and a literal of any announced length is accepted (`/repo/src/client.rs:144-150`). A server that never
  ends a line makes `next` read on forever, whatever the codec does (`C80_line`).
* C81: `C81_format`. Only keys in the format PKCS#8 are read; with a key in the formats PKCS#1 or SEC1 (`BEGIN RSA PRIVATE KEY`,
  `BEGIN EC PRIVATE KEY`) every client of the service is turned away, and the log says that no key was found. Nothing is checked at
  the start of the service.
* C82: `C82_commands`, `C82_responses`. The proxy goes on to read from one peer while the other one takes nothing, and keeps
  everything in memory: `select!` in `start_conversation` always polls both streams, and a message is enqueued for the other peer
  however much waits to be written to it (`/repo/proxy/src/proxy.rs:222-235`).
* C83: `C83_literal`, `C83_proxy`, `C83_size`. The content of a literal can become a command, although client and server follow the
  protocol. If a literal that is not synchronizing is too long, only its announcement is discarded (`/repo/src/server.rs:270-284`, with a
  TODO); in this way a mail of more than 25 MiB makes the proxy send commands to the server that the user of the client never
  enqueued. If a command is longer than `max_command_size`, the server gives up in the middle of a literal that it has accepted.
* C86: `C86_idle`, `C86_line`. For the reasons of C76 and C80: a client that has sent IDLE can go on to send, and the proxy keeps
  everything until the server answers the IDLE, however long that takes; and a server that does not end its line is read forever.
* C87: `C87_quadratic`. The TODO #129 of `/repo/src/receive.rs:122-124`: a command is decoded again from its start after each
  of its lines. `n` announcements of empty literals (5 bytes each with the toy codec) cost `5 n (n + 1) / 2` bytes of decoding,
  with the default options up to 69 terabytes for one command (`C87_default`). The client does the same with responses and has no
  limit at all, so a server can make it do so in a single call of `next` (`C87_client_quadratic`, `C87_client_false`).
* C89: `C89_false`. `start_literal` reserves memory for a literal as soon as it is announced (`/repo/src/receive.rs:46-49`), and the client
  accepts every length (`/repo/src/client.rs:144-150`): one line of a server makes a client, and so the proxy, ask for up to 4 GiB. If
  the allocation fails, the whole process is aborted.
* C39: `C39_false`. The statuses that answer AUTHENTICATE and IDLE and their continuation requests are forwarded unfiltered.
* C40: `C40_false_client`: a client that sends its authenticate data before the server asked for it makes the proxy panic.
  `C40_false_server`: a server that ends an IDLE it has accepted makes the proxy panic. `C40_partial`: there are no other panics.
* C42: `C42_false`. Only in the second panic of C40.
* C45: `C45_false`. A response is lost if the server closes the connection right after it.
* C46: `C46_false`. Because of C25 a forwarded response can stay in the queue while the proxy waits on both connections.

* C49: `C49_false`, `C49_hangs`: after a `close_notify`, `next` hangs without suspending, so the stream can neither be cancelled nor
  see the end of the TCP connection.
* C56: `C56_false`, `C56_client_hangs`, `C56_server_hangs`: for the same reason a `close_notify` of one peer hangs the whole
  conversation of the proxy: the other connection is neither served nor closed. `C56_before_greeting`: before the greeting of the
  server the proxy does not notice that the client has gone.

* C60: `C60_false`, `C60_blocked`: with `Bind::Tls` the accept loop awaits the handshake of one client (no timeout), so that a client that
  connects and sends nothing keeps a service from accepting anyone else.
* C61: `C61_false`, `C61_stuck`: as many clients that end their TLS connections as there are worker threads stop the whole process.

* C51 without the hypothesis that no command is rejected: `C51_stalls`. After a rejected literal a response of the user can stay in
  the queue of the server while both users wait and nothing is on the way (end-to-end consequence of C25).

## Trusted base

Lean 4.33.0 kernel; axioms at most `propext`, `Classical.choice`, `Quot.sound`; the reading of the Rust code recorded in the citations;
the `Lib` contract. Not modelled: tracing output, `Debug` formatting, memory use and performance except for what C87 (decoding), C88 (searching) and C89 (`reserve`) count, the syntax of
PEM files and what rustls checks about certificates and keys (C81 starts from the items that `rustls_pemfile` reads), TOML parsing.
