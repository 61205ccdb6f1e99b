{"claims":[
{"property": "C01", "status": "proved", "theorems": ["ImapFlow.C01_client_chunking", "ImapFlow.C01_client_chunking_drained"], "note": "for every reachable client"},
{"property": "C02", "status": "proved", "theorems": ["ImapFlow.C02_server_chunking", "ImapFlow.C02_server_chunking_drained"], "note": "for every reachable server"},
{"property": "C03", "status": "proved", "theorems": ["ImapFlow.C03_client_accounting", "ImapFlow.C03_client_message_bytes", "ImapFlow.C03_server_accounting", "ImapFlow.C03_server_message_bytes"], "note": "client and server"},
{"property": "C04", "status": "proved", "theorems": ["ImapFlow.C04_client_strict_crlf", "ImapFlow.C04_client_bad_line", "ImapFlow.C04_client_rejects", "ImapFlow.C04_client_rejects_greeting", "ImapFlow.C04_server_strict_crlf", "ImapFlow.C04_server_bad_line", "ImapFlow.C04_server_rejects"], "note": "client and server"},
{"property": "C05", "status": "proved", "theorems": ["ImapFlow.C05_server_limit", "ImapFlow.C05_server_too_long_is_limit", "ImapFlow.C05_server_rejects_long", "ImapFlow.C05_server_asks_below_limit"], "note": "server; with exact converse"},
{"property": "C06", "status": "proved", "theorems": ["ImapFlow.C06_client_literal_opaque", "ImapFlow.C06_server_literal_opaque"], "note": "client and server"},
{"property": "C07", "status": "proved", "theorems": ["ImapFlow.C07_client_no_panic"], "note": ""},
{"property": "C08", "status": "proved", "theorems": ["ImapFlow.C08_server_no_panic", "ImapFlow.C08_default_options"], "note": "for options built with the public API and a lawful codec"},
{"property": "C09", "status": "proved", "theorems": ["ImapFlow.C09_client_next_returns", "ImapFlow.C09_client_receive_returns", "ImapFlow.C09_server_next_returns"], "note": "client and server"},
{"property": "C10", "status": "proved", "theorems": ["ImapFlow.C10_client_starved", "ImapFlow.C10_client_not_withheld", "ImapFlow.C10_client_greeting_not_withheld", "ImapFlow.C10_client_reads_it", "ImapFlow.C10_server_starved", "ImapFlow.C10_server_not_withheld", "ImapFlow.C10_server_reads_it"], "note": "client and server"},
{"property": "C11", "status": "proved", "theorems": ["ImapFlow.C11_nothing_before_greeting"], "note": ""},
{"property": "C12", "status": "proved", "theorems": ["ImapFlow.C12_output_segments", "ImapFlow.C12_output_prefix"], "note": ""},
{"property": "C13", "status": "proved", "theorems": ["ImapFlow.C13_terminal_events", "ImapFlow.C13_at_most_once"], "note": ""},
{"property": "C14", "status": "proved", "theorems": ["ImapFlow.C14_output_stops_at_literal", "ImapFlow.C14_release", "ImapFlow.C14_literal_follows"], "note": ""},
{"property": "C15", "status": "proved", "theorems": ["ImapFlow.C15_rejected", "ImapFlow.C15_bad_rejects", "ImapFlow.C15_other_status", "ImapFlow.C15_status_untouched", "ImapFlow.C15_next_command", "ImapFlow.C15_nothing_more"], "note": ""},
{"property": "C16", "status": "proved", "theorems": ["ImapFlow.C16_set_authenticate_data", "ImapFlow.C16_refused_unchanged", "ImapFlow.C16_data_output_next", "ImapFlow.C16_output_is_accepted_data", "ImapFlow.C16_status_ends"], "note": ""},
{"property": "C17", "status": "proved", "theorems": ["ImapFlow.C17_set_idle_done", "ImapFlow.C17_refused_unchanged", "ImapFlow.C17_only_done_output", "ImapFlow.C17_done_output_next", "ImapFlow.C17_status_ends"], "note": ""},
{"property": "C18", "status": "proved", "theorems": ["ImapFlow.C18_event_carries_message", "ImapFlow.C18_silent_message", "ImapFlow.C18_continuation_consumer"], "note": ""},
{"property": "C19", "status": "proved", "theorems": ["ImapFlow.C19_server_output", "ImapFlow.C19_server_output_bytes", "ImapFlow.C19_server_next_output"], "note": "server"},
{"property": "C20", "status": "proved", "theorems": ["ImapFlow.C20_sent_after_output", "ImapFlow.C20_all_sent_before_output", "ImapFlow.C20_sent"], "note": "server"},
{"property": "C21", "status": "proved", "theorems": ["ImapFlow.C21_server_literal", "ImapFlow.C21_server_literals_of_command", "ImapFlow.C21_server_literals_when_starved", "ImapFlow.C21_server_no_literal_elsewhere"], "note": "server"},
{"property": "C22", "status": "proved", "theorems": ["ImapFlow.C22_literal_too_long", "ImapFlow.C22_rejects"], "note": "server"},
{"property": "C23", "status": "proved", "theorems": ["ImapFlow.C23_granted", "ImapFlow.C23_failure_unchanged", "ImapFlow.C23_success_appends"], "note": "server"},
{"property": "C24", "status": "proved", "theorems": ["ImapFlow.C24_decoded_in_phase", "ImapFlow.C24_discarded_in_phase", "ImapFlow.C24_nothing_decoded_while_pending"], "note": "server"},
{"property": "C25", "status": "partial", "theorems": ["ImapFlow.C25_client_nothing_to_send", "ImapFlow.C25_client_stable", "ImapFlow.C25_server_false", "ImapFlow.C25_server_partial", "ImapFlow.C25_server_next_continues"], "note": "client: proved. server: the claim is false (C25_server_false); C25_server_partial states what holds: all self-generated responses are out, and all responses unless a self-generated one ended in the same call"},
{"property": "C26", "status": "partial", "theorems": ["ImapFlow.C26_false", "ImapFlow.C26_literal_not_command_partial"], "note": "false as stated (C26_false); holds if prefix and literal fit into max_command_size"},
{"property": "C27", "status": "proved", "theorems": ["ImapFlow.C27_client_handles_unique", "ImapFlow.C27_server_handles_unique"], "note": "for all clients and, separately, all servers of a process"},
{"property": "C28", "status": "proved", "theorems": ["ImapFlow.C28_tags_unique", "ImapFlow.C28_tags_valid"], "note": "uniqueness and validity, debug and release tags"},
{"property": "C29", "status": "proved", "theorems": ["ImapFlow.C29_input", "ImapFlow.C29_nothing_kept", "ImapFlow.C29_poll", "ImapFlow.C29_state"], "note": "insecure stream, any State"},
{"property": "C30", "status": "proved", "theorems": ["ImapFlow.C30_output", "ImapFlow.C30_flush", "ImapFlow.C30_waiting"], "note": "insecure stream, any State"},
{"property": "C31", "status": "partial", "theorems": ["ImapFlow.C31_false", "ImapFlow.C31_partial", "ImapFlow.C31_after_write", "ImapFlow.C31_client", "ImapFlow.C31_server", "ImapFlow.C31_flush", "ImapFlow.C31_written", "ImapFlow.C31_refused"], "note": "False as stated: C31_false. Proved for every sent event of clients and servers, with and without TLS: the bytes of the message were handed out last (C31_client, C31_server), and a peer can read them after a later successful flush (C31_flush) or if the event follows a completed write (C31_written). C31_refused: with TLS a truncated command can be reported as sent after encrypt failed. C31_partial and C31_after_write are the versions on the model without TLS."},
{"property": "C32", "status": "proved", "theorems": ["ImapFlow.C32_returned", "ImapFlow.C32_event", "ImapFlow.C32_error", "ImapFlow.C32_closed", "ImapFlow.C32_full_returned", "ImapFlow.C32_full_at_once"], "note": "any State; C32_full_returned and C32_full_at_once are the versions with and without TLS"},
{"property": "C33", "status": "partial", "theorems": ["ImapFlow.C33_diverges", "ImapFlow.C33_false", "ImapFlow.C33_early_data", "ImapFlow.C33_partial", "ImapFlow.C33_broken", "ImapFlow.C33_loops"], "note": "false as stated (C33_false, C33_diverges: never ends after close_notify; C33_early_data: plaintext already in the connection is never passed on); C33_partial: holds for valid records without close_notify; all relative to the stated rustls contract, which is an assumption. C33_loops: the function that the model of streams uses gives exactly the result of the loops"},
{"property": "C34", "status": "partial", "theorems": ["ImapFlow.C34_partial", "ImapFlow.C34_too_long", "ImapFlow.C34_exact", "ImapFlow.C34_false", "ImapFlow.C34_truncates", "ImapFlow.C34_round_trip"], "note": "false above the buffer limit (C34_false, C34_exact, C34_truncates); C34_partial and C34_round_trip within it; relative to the stated rustls contract, which is an assumption"},
{"property": "C35", "status": "proved", "theorems": ["ImapFlow.C35_client_decodes_server", "ImapFlow.C35_client_decodes_output", "ImapFlow.C35_client_decodes_everything"], "note": "every schedule of both sides and both channels; codec round trip for the enqueued messages; with completeness"},
{"property": "C36", "status": "proved", "theorems": ["ImapFlow.C36_server_receives_client", "ImapFlow.C36_server_reads_output"], "note": "every schedule; hypotheses GoodCommands (regular, round trip, within limits, none rejected) and 0 < max_command_size"},
{"property": "C37", "status": "proved", "theorems": ["ImapFlow.C37_no_deadlock"], "note": "every schedule; hypotheses of C35 and C36, options built with the setters"},
{"property": "C38", "status": "proved", "theorems": ["ImapFlow.C38_keeps_supported", "ImapFlow.C38_default", "ImapFlow.C38_sound", "ImapFlow.C38_excluded", "ImapFlow.C38_idempotent"], "note": ""},
{"property": "C39", "status": "partial", "theorems": ["ImapFlow.C39_false", "ImapFlow.C39_false_wire", "ImapFlow.C39_partial", "ImapFlow.C39_regular", "ImapFlow.C39_wire_partial", "ImapFlow.C39_socket_partial"], "note": "false (C39_false, C39_false_wire): capabilities in the answers to AUTHENTICATE and IDLE are forwarded unfiltered; C39_partial/C39_wire_partial: these are the only exceptions; C39_regular: holds if the client uses neither"},
{"property": "C40", "status": "partial", "theorems": ["ImapFlow.C40_false_client", "ImapFlow.C40_false_server", "ImapFlow.C40_partial", "ImapFlow.C40_panic_is_last"], "note": "false: two remotely triggered panics (C40_false_client, C40_false_server); C40_partial: exactly these two, no others"},
{"property": "C41", "status": "proved", "theorems": ["ImapFlow.C41_commands", "ImapFlow.C41_everything", "ImapFlow.C41_panic", "ImapFlow.C41_wire", "ImapFlow.C41_source", "ImapFlow.C41_bytes", "ImapFlow.C41_socket", "ImapFlow.C41_socket_bytes"], "note": "every schedule; also authenticate data and DONE (C41_everything); relative to Lib.Proxyable"},
{"property": "C42", "status": "partial", "theorems": ["ImapFlow.C42_false", "ImapFlow.C42_partial", "ImapFlow.C42_calls", "ImapFlow.C42_calls_always", "ImapFlow.C42_panic", "ImapFlow.C42_wire", "ImapFlow.C42_source", "ImapFlow.C42_socket", "ImapFlow.C42_texts"], "note": "false only when the proxy panics on an IDLE ended by the server (C42_false); C42_partial and C42_panic: all other histories and responses; C42_calls: exactly the calls that the events ask for"},
{"property": "C43", "status": "proved", "theorems": ["ImapFlow.C43_set_accept", "ImapFlow.C43_set_reject", "ImapFlow.C43_texts_valid"], "note": ""},
{"property": "C44", "status": "proved", "theorems": ["ImapFlow.C44_server_in_step", "ImapFlow.C44_client_in_step", "ImapFlow.C44_no_deadlock"], "note": "every schedule, any mixture of accepted and rejected commands; hypotheses MixedCommands (regular, round trip, within max_command_size, literals too long only if synchronizing, distinct tags) and PoliteServer (the user of the server sends no continuation requests, and BAD only for delivered commands)"},
{"property": "C45", "status": "partial", "theorems": ["ImapFlow.C45_false", "ImapFlow.C45_partial", "ImapFlow.C45_socket_partial"], "note": "false (C45_false): responses are lost when the server closes; C45_partial: only the last ones"},
{"property": "C46", "status": "partial", "theorems": ["ImapFlow.C46_false", "ImapFlow.C46_partial", "ImapFlow.C46_commands", "ImapFlow.C46_all_commands", "ImapFlow.C46_written"], "note": "responses: false (C46_false), C46_partial states the only exception; commands: C46_commands, C46_all_commands"},
{"property": "C47", "status": "proved", "theorems": ["ImapFlow.C47_input", "ImapFlow.C47_poll", "ImapFlow.C47_state"], "note": "stream with TLS, any State, any record layer"},
{"property": "C48", "status": "proved", "theorems": ["ImapFlow.C48_output", "ImapFlow.C48_waiting", "ImapFlow.C48_flush", "ImapFlow.C48_refused"], "note": "stream with TLS, any State, any record layer; the condition that encrypt does not fail is exactly that every output fits the buffer limit (C48_refused)"},
{"property": "C49", "status": "partial", "theorems": ["ImapFlow.C49_hangs", "ImapFlow.C49_partial", "ImapFlow.C49_waiting", "ImapFlow.C49_false"], "note": "false as stated (C49_false, C49_hangs: after close_notify next hangs); C49_partial: the end of the TCP connection is reported"},
{"property": "C50", "status": "proved", "theorems": ["ImapFlow.C50_refines", "ImapFlow.C50_events", "ImapFlow.C50_alive", "ImapFlow.C50_accepted"], "note": "for all schedules; C50_accepted says when rustls refuses"},
{"property": "C51", "status": "proved", "theorems": ["ImapFlow.C51_commands", "ImapFlow.C51_data", "ImapFlow.C51_responses", "ImapFlow.C51_nothing_else", "ImapFlow.C51_reports", "ImapFlow.C51_greeting_first", "ImapFlow.C51_no_errors", "ImapFlow.C51_no_deadlock", "ImapFlow.C51_stalls"], "note": "hypotheses about the users only (GoodUse); C51_stalls shows that the hypothesis that no command is rejected is needed (because of the server part of C25)"},
{"property": "C52", "status": "proved", "theorems": ["ImapFlow.C52_heard", "ImapFlow.C52_answers", "ImapFlow.C52_expected", "ImapFlow.C52_early_finish"], "note": "C52_early_finish shows that the hypothesis about the user of the server is needed"},
{"property": "C53", "status": "proved", "theorems": ["ImapFlow.C53_everything_said", "ImapFlow.C53_turn"], "note": "same hypotheses as C52"},
{"property": "C54", "status": "proved", "theorems": ["ImapFlow.C54_no_panic", "ImapFlow.C54_rest", "ImapFlow.C54_busy", "ImapFlow.C54_delivered", "ImapFlow.C54_commands"], "note": "max_command_size > 0 is needed: C54_busy"},
{"property": "C55", "status": "proved", "theorems": ["ImapFlow.C55_client_read", "ImapFlow.C55_server_read", "ImapFlow.C55_client_written", "ImapFlow.C55_server_written", "ImapFlow.C55_accepted", "ImapFlow.C55_failure", "ImapFlow.C55_closed", "ImapFlow.C55_commands"], "note": "each connection with or without TLS; C55_failure: a TLS failure ends the conversation"},
{"property": "C56", "status": "partial", "theorems": ["ImapFlow.C56_client_hangs", "ImapFlow.C56_server_hangs", "ImapFlow.C56_only_then", "ImapFlow.C56_partial", "ImapFlow.C56_before_greeting", "ImapFlow.C56_false"], "note": "false (C56_false, C56_client_hangs, C56_server_hangs): a close_notify from either peer hangs the whole conversation; C56_only_then: nothing else does; C56_partial: the end of the TCP connection ends it"},
{"property": "C57", "status": "proved", "theorems": ["ImapFlow.C57_commands", "ImapFlow.C57_responses", "ImapFlow.C57_server_events", "ImapFlow.C57_client_events", "ImapFlow.C57_greeting_first", "ImapFlow.C57_no_errors"], "note": "hypotheses about the users only (GoodRelay)"},
{"property": "C58", "status": "proved", "theorems": ["ImapFlow.C58_no_deadlock", "ImapFlow.C58_alive", "ImapFlow.C58_open"], "note": "hypotheses about the users only (GoodRelay)"},
{"property": "C59", "status": "proved", "theorems": ["ImapFlow.C59_conversation", "ImapFlow.C59_nothing", "ImapFlow.C59_commands", "ImapFlow.C59_others", "ImapFlow.C59_possible"], "note": "each conversation of the process is a run of the single-conversation model, so that the other proxy theorems apply to it"},
{"property": "C60", "status": "partial", "theorems": ["ImapFlow.C60_false", "ImapFlow.C60_blocked", "ImapFlow.C60_partial"], "note": "false with Bind::Tls: C60_false, C60_blocked (the accept loop awaits the handshake of the client); C60_partial says exactly when a client can be accepted"},
{"property": "C61", "status": "partial", "theorems": ["ImapFlow.C61_stuck", "ImapFlow.C61_hangs", "ImapFlow.C61_standstill", "ImapFlow.C61_false", "ImapFlow.C61_partial"], "note": "false: C61_false, C61_hangs, C61_stuck (a conversation hung by close_notify occupies a worker thread for ever); C61_partial: no standstill while fewer conversations than worker threads have such peers; C61_standstill: as many of them as worker threads stop everything"},
{"property": "C62", "status": "proved", "theorems": ["ImapFlow.C62_heard", "ImapFlow.C62_answers", "ImapFlow.C62_expected", "ImapFlow.C62_turn"], "note": "rustls takes all input (C49 says when it does not); the hypotheses of C52"},
{"property": "C63", "status": "proved", "theorems": ["ImapFlow.C63_progress", "ImapFlow.C63_rest", "ImapFlow.C63_settles", "ImapFlow.C63_delivered", "ImapFlow.C63_commands"], "note": "rustls takes all input; max_command_size > 0 is needed (C54_busy)"},
{"property": "C64", "status": "proved", "theorems": ["ImapFlow.C64_heard", "ImapFlow.C64_answers", "ImapFlow.C64_expected", "ImapFlow.C64_proxy", "ImapFlow.C64_turn"], "note": "rustls takes all input; users orderly and messages understood on both connections (RelayUsers)"},
{"property": "C65", "status": "proved", "theorems": ["ImapFlow.C65_progress", "ImapFlow.C65_rest", "ImapFlow.C65_settles", "ImapFlow.C65_open", "ImapFlow.C65_delivered", "ImapFlow.C65_commands"], "note": "rustls takes all input; max_command_size > 0 is needed (C54_busy); for what was delivered: RelayUsers as in C64, and no socket of the proxy closed or failed"},
{"property": "C66", "status": "proved", "theorems": ["ImapFlow.C66_client", "ImapFlow.C66_authenticate", "ImapFlow.C66_idle"], "note": "Model/Examples.lean; the stream is insecure, as in the programs"},
{"property": "C67", "status": "proved", "theorems": ["ImapFlow.C67_starts", "ImapFlow.C67_server", "ImapFlow.C67_stuck", "ImapFlow.C67_authenticate", "ImapFlow.C67_idle"], "note": "the fixed texts of the programs are valid for the codec (Lib.Exemplary)"},
{"property": "C68", "status": "proved", "theorems": ["ImapFlow.C68_program", "ImapFlow.C68_bytes", "ImapFlow.C68_spin"], "note": "Model/ClientStd.lean; the end of the input is an endless loop (C68_spin)"},
{"property": "C69", "status": "proved", "theorems": ["ImapFlow.C69_reported", "ImapFlow.C69_streams", "ImapFlow.C69_order", "ImapFlow.C69_rest", "ImapFlow.C69_delivered"], "note": "hypotheses as in C62: orderly user of the server, fair client, messages decoded to themselves; 0 < max_command_size"},
{"property": "C70", "status": "proved", "theorems": ["ImapFlow.C70_runs", "ImapFlow.C70_finite", "ImapFlow.C70_rest"], "note": "the messages of the session are decoded to themselves (Conversant)"},
{"property": "C71", "status": "proved", "theorems": ["ImapFlow.C71_runs", "ImapFlow.C71_progress", "ImapFlow.C71_over", "ImapFlow.C71_ends", "ImapFlow.C71_endless"], "note": "the messages of the session are decoded to themselves (Conversant)"},
{"property": "C72", "status": "proved", "theorems": ["ImapFlow.C72_runs", "ImapFlow.C72_rest", "ImapFlow.C72_over", "ImapFlow.C72_rejected", "ImapFlow.C72_ends"], "note": "the messages of the session are decoded to themselves (Conversant)"},
{"property": "C73", "status": "proved", "theorems": ["ImapFlow.C73_server_in_step", "ImapFlow.C73_client_in_step", "ImapFlow.C73_no_deadlock", "ImapFlow.C73_users_server", "ImapFlow.C73_users_client", "ImapFlow.C73_users_told", "ImapFlow.C73_users_events", "ImapFlow.C73_users_greeting_first", "ImapFlow.C73_users_server_events", "ImapFlow.C73_users_rest"], "note": "C73_users_\u2026: hypotheses about the users only (MixedUse): regular commands with different tags that the server decodes, literals too long only if synchronizing, no continuation requests and a tagged BAD only for delivered commands, messages decoded to themselves; 0 < max_command_size"},
{"property": "C74", "status": "proved", "theorems": ["ImapFlow.C74_server", "ImapFlow.C74_client", "ImapFlow.C74_told", "ImapFlow.C74_client_events", "ImapFlow.C74_no_deadlock", "ImapFlow.C74_alive", "ImapFlow.C74_open"], "note": "hypotheses about the users only (MixedRelay), as for C73 and for both connections; 0 < max_command_size of the server; the sample has a literal that the server rejects (the proxy accepts up to 25 MiB)"},
{"property": "C75", "status": "proved", "theorems": ["ImapFlow.C75_output", "ImapFlow.C75_waiting", "ImapFlow.C75_flush", "ImapFlow.C75_whole", "ImapFlow.C75_fitting"], "note": "stream with TLS, any State, any record layer; after decrypt has failed the stream is not used on"},
{"property": "C76", "status": "partial", "theorems": ["ImapFlow.C76_idle", "ImapFlow.C76_unwritten", "ImapFlow.C76_waits", "ImapFlow.C76_waiting", "ImapFlow.C76_since", "ImapFlow.C76_partial", "ImapFlow.C76_tls_waiting", "ImapFlow.C76_tls_since", "ImapFlow.C76_tls_partial"], "note": "false of the code: C76_idle (IDLE waits for the user, next reads on without limit), C76_unwritten (next reads and answers although the peer reads nothing). Proved without TLS: while next only waits for input nothing waits to be written and less than max_command_size bytes are held unless IDLE waits (C76_waiting); since a time at which it only waited for input (and not IDLE for the user) it has gained less than max_command_size bytes over what it read since (C76_since); if no read completes while output is written or IDLE waits, at most max_command_size + N bytes are held, N the size of a read (C76_partial). With TLS the same with one record more: C76_tls_waiting, C76_tls_since, C76_tls_partial (record layers with a maximal size of records). C76_waits: IDLE waits only if it was received and not answered since then"},
{"property": "C77", "status": "proved", "theorems": ["ImapFlow.C77_bind", "ImapFlow.C77_connect", "ImapFlow.C77_distinct", "ImapFlow.C77_sections", "ImapFlow.C77_display", "ImapFlow.C77_printed", "ImapFlow.C77_encryption"], "note": "the syntax of TOML is not modelled; that an address which is the text of an IP address with a port is parsed directly by std is not modelled"},
{"property": "C78", "status": "partial", "theorems": ["ImapFlow.C78_server", "ImapFlow.C78_client", "ImapFlow.C78_server_partial", "ImapFlow.C78_client_partial", "ImapFlow.C78_output", "ImapFlow.C78_injected_server", "ImapFlow.C78_injected_client", "ImapFlow.C78_glued", "ImapFlow.C78_lost"], "note": "false of the code: plaintext that arrives before the upgrade is reported afterwards (C78_injected_server, C78_injected_client, C78_glued), unnoticed by the owner; output that is still in the write buffer is lost (C78_lost). Proved: exactly what is reported and written (C78_server, C78_client, C78_output), and the property if everything read before the upgrade had been reported (C78_server_partial, C78_client_partial)"},
{"property": "C79", "status": "proved", "theorems": ["ImapFlow.C79_capacity", "ImapFlow.C79_stuck", "ImapFlow.C79_ends", "ImapFlow.C79_commands", "ImapFlow.C79_delivered", "ImapFlow.C79_flush", "ImapFlow.C79_proxy_stuck", "ImapFlow.C79_proxy_ends", "ImapFlow.C79_proxy_delivered", "ImapFlow.C79_proxy_commands"], "note": "rustls takes all input, as in C63 and C65; the closing of sockets by a proxy that has ended is not part of it (RelayOpen)"},
{"property": "C80", "status": "partial", "theorems": ["ImapFlow.C80_line", "ImapFlow.C80_unbounded", "ImapFlow.C80_partial", "ImapFlow.C80_tls_partial", "ImapFlow.C80_output", "ImapFlow.C80_written", "ImapFlow.C80_tls_written"], "note": "false of the code: a client has no limit for a message (C80_line for every input without LF, C80_unbounded). What holds: C80_partial (while a stream without TLS waits for input, the client holds only the beginning of one message, and nothing waits to be written), C80_tls_partial (the same with TLS; the connection holds less than a record) and C80_output, C80_written, C80_tls_written (the output is bounded by what the user asked for; with TLS times the growth of records)"},
{"property": "C81", "status": "proved", "theorems": ["ImapFlow.C81_chain", "ImapFlow.C81_key", "ImapFlow.C81_chain_error", "ImapFlow.C81_key_error", "ImapFlow.C81_identity", "ImapFlow.C81_identity_error", "ImapFlow.C81_format", "ImapFlow.C81_served", "ImapFlow.C81_unusable"], "note": "the syntax of PEM (rustls_pemfile) and the checks of with_single_cert are parameters"},
{"property": "C82", "status": "partial", "theorems": ["ImapFlow.C82_commands", "ImapFlow.C82_responses", "ImapFlow.C82_partial", "ImapFlow.C82_unwritten", "ImapFlow.C82_tls_unwritten", "ImapFlow.C82_responses_unwritten", "ImapFlow.C82_tls_responses_unwritten"], "note": "false of the code: there is no backpressure (C82_commands, C82_responses: any number of bytes waits to be written). What holds: C82_partial, C82_unwritten (at most what was received from the client), C82_responses_unwritten (the greeting and whole responses of the server or own replies); C82_tls_unwritten, C82_tls_responses_unwritten: the same with TLS, times the growth of records"},
{"property": "C83", "status": "partial", "theorems": ["ImapFlow.C83_literal", "ImapFlow.C83_size", "ImapFlow.C83_proxy", "ImapFlow.C83_partial", "ImapFlow.C83_proxy_partial"], "note": "false of the code: C83_literal (only the announcement of a non-synchronizing literal that is too long is discarded, so its content is read as commands), C83_proxy (the same with the proxy and its limits, for every mail of one byte more than 25 MiB that begins with a command), C83_size (a command longer than max_command_size is given up in the middle of an accepted literal). What holds: C83_partial, C83_proxy_partial (too long literals are synchronizing, commands fit into max_command_size; users as in C73, C74)"},
{"property": "C84", "status": "proved", "theorems": ["ImapFlow.C84_stream", "ImapFlow.C84_full_stream", "ImapFlow.C84_program", "ImapFlow.C84_client_std", "ImapFlow.C84_session", "ImapFlow.C84_visible", "ImapFlow.C84_session_visible", "ImapFlow.C84_over"], "note": "a future that has panicked or finished is never polled again; that is how tokio and the language behave and is part of the model"},
{"property": "C85", "status": "proved", "theorems": ["ImapFlow.C85_count", "ImapFlow.C85_life", "ImapFlow.C85_nothing", "ImapFlow.C85_next", "ImapFlow.C85_failed"], "note": "Readings: C85_count (number of tasks), C85_life (each task from its start to now, with the connection of exactly its client), C85_nothing, C85_next (the accept loop never ends), C85_failed."},
{"property": "C86", "status": "partial", "theorems": ["ImapFlow.C86_idle", "ImapFlow.C86_line", "ImapFlow.C86_client_partial", "ImapFlow.C86_server_partial", "ImapFlow.C86_greeting_partial"], "note": "false of the code: after IDLE the proxy listens to the client without limit until the server answers (C86_idle), and there is no limit for responses (C86_line, for every codec and every input without LF). What holds, with or without TLS: C86_client_partial (less than 25 MiB + 64 KiB unless the client sent IDLE and it waits for its answer), C86_server_partial and C86_greeting_partial (only the beginning of one message is held, and less than a record)"},
{"property": "C87", "status": "partial", "theorems": ["ImapFlow.C87_decoder", "ImapFlow.C87_quadratic", "ImapFlow.C87_default", "ImapFlow.C87_false", "ImapFlow.C87_partial", "ImapFlow.C87_lines", "ImapFlow.C87_client_quadratic", "ImapFlow.C87_client_false", "ImapFlow.C87_client_partial", "ImapFlow.C87_proxy_partial"], "note": "false of the code (TODO #129 in src/receive.rs): a command that announces many literals is decoded again from its start after each line (C87_quadratic; 69 terabytes for less than 25 MiB + 64 KiB with the default options, C87_default; no factor suffices, C87_false). What holds: C87_partial (at most one attempt per line end, each at most the allowed size; beyond the input only announcements cost), C87_lines (without literals no byte twice), C87_decoder (the decoders are asked nothing else). In the proxy: C87_proxy_partial. The client has the same weakness without any limit (C87_client_quadratic, C87_client_false); what holds there: C87_client_partial"},
{"property": "C88", "status": "proved", "theorems": ["ImapFlow.C88_client", "ImapFlow.C88_server", "ImapFlow.C88_server_once", "ImapFlow.C88_server_again", "ImapFlow.C88_looked", "ImapFlow.C88_proxy_client", "ImapFlow.C88_proxy_server"], "note": "C88_client (at most once), C88_server (at most twice), C88_server_once (at most once if no authentication was finished), C88_server_again (the second search happens), C88_looked (the bytes that are counted are all that the search depends on, together with the byte before them). Only the search for LF is counted; decoding is counted by C87. In the proxy: C88_proxy_client, C88_proxy_server"},
{"property": "C89", "status": "partial", "theorems": ["ImapFlow.C89_server", "ImapFlow.C89_false", "ImapFlow.C89_client_partial", "ImapFlow.C89_proxy_client", "ImapFlow.C89_proxy_server_partial", "ImapFlow.C89_proxy_false"], "note": "server: proved (C89_server). Client: false of the code (C89_false: after 41 bytes the client asks for almost 4 GiB, with a codec with the syntax of IMAP). What holds: C89_client_partial (at most the longest literal that the decoder can find, a 32-bit number, beyond what was received). In the proxy: C89_proxy_client (25 MiB for the client), C89_proxy_false and C89_proxy_server_partial (the server)"}
]}
