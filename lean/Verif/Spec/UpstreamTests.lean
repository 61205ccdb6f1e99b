import Verif.Spec.Upstream

/-!
# The tests of `/repo/integration-test` on the model

Each test of `/repo/integration-test/tests/{client,server,client_server}.rs` and `/repo/src/tests.rs`, run on the model with
the codec `Imap.lib` and several schedules.  These are tests of the model (evaluations of single cases), not proofs of properties.

Lines of 10 MiB are replaced by lines of about 50 bytes.
-/

namespace ImapFlow.Upstream

def ok : Bytes := ascii "* OK ...\r\n"
def okLf : Bytes := ascii "* OK ...\n"
def noop : Bytes := ascii "A1 NOOP\r\n"
def noop2 : Bytes := ascii "A2 NOOP\r\n"
def status : Bytes := ascii "A1 OK ...\r\n"
def status2 : Bytes := ascii "A2 OK ...\r\n"
def statusNo : Bytes := ascii "A1 NO ...\r\n"
def statusBad : Bytes := ascii "A1 BAD ...\r\n"
def more : Bytes := ascii "+ ...\r\n"
def gibberish : Bytes := ascii "I like bananas\r\n"
def login : Bytes := ascii "A1 LOGIN {5}\r\nABCDE {5}\r\nFGHIJ\r\n"
def loginNonSync : Bytes := ascii "A1 LOGIN {5+}\r\nABCDE {5+}\r\nFGHIJ\r\n"
def idle : Bytes := ascii "A1 IDLE\r\n"
def idling : Bytes := ascii "+ idling\r\n"
def idleDone : Bytes := ascii "DONE\r\n"
def rise : Bytes := ascii "A1 NO rise and shine\r\n"
def authenticate : Bytes := ascii "A1 AUTHENTICATE PLAIN\r\n"
def authenticateIr : Bytes := ascii "A1 AUTHENTICATE PLAIN dGVzdAB0ZXN0AHRlc3Q=\r\n"
def authenticateMore : Bytes := ascii "+ \r\n"
def authenticateData : Bytes := ascii "dGVzdAB0ZXN0AHRlc3Q=\r\n"
def success : Bytes := ascii "A1 OK success\r\n"
def abort : Bytes := ascii "A1 NO abort\r\n"

/-- A line that stands for the lines of 10 MiB. -/
def large (pre : String) (b : Byte) : Bytes := ascii pre ++ List.replicate 50 b ++ ascii "\r\n"

/-- The first `n` bytes. -/
def upTo (b : Bytes) (n : Nat) : Bytes := b.take n

/-- The bytes from `m` to `n`. -/
def slice (b : Bytes) (m n : Nat) : Bytes := (b.take n).drop m

/-- The bytes from `m`. -/
def from_ (b : Bytes) (m : Nat) : Bytes := b.drop m

/-! ## `/repo/integration-test/tests/client.rs` -/

namespace client

/-- The mock greets the client. -/
def greeted : List MockStep × List ClientStep := ([.send ok], receiveGreeting ok)

/-- `/repo/integration-test/tests/client.rs:6-17` -/
example : ∀ s ∈ schedules, clientTest .default
    [greeted,
     ([.receive noop], sendCommand 0 noop),
     ([.send status], receiveStatus status)] s = true := by decide +kernel

/-- `noop_with_large_lines`, `/repo/integration-test/tests/client.rs:20-44` -/
example : ∀ s ∈ schedules, clientTest .default
    [([.send (large "* OK " 46)], receiveGreeting (large "* OK " 46)),
     ([.receive noop], sendCommand 0 noop),
     ([.send (large "A1 OK " 46)], receiveStatus (large "A1 OK " 46))] s = true := by decide +kernel

/-- `gibberish_instead_of_greeting`, `/repo/integration-test/tests/client.rs:47-55` -/
example : ∀ s ∈ schedules, clientTest .default
    [([.send gibberish], receiveErrorBecauseMalformedMessage gibberish)] s = true := by decide +kernel

/-- `gibberish_instead_of_response`, `/repo/integration-test/tests/client.rs:58-72` -/
example : ∀ s ∈ schedules, clientTest .default
    [greeted,
     ([.receive noop], sendCommand 0 noop),
     ([.send gibberish], receiveErrorBecauseMalformedMessage gibberish)] s = true := by decide +kernel

/-- `greeting_with_missing_cr`, `/repo/integration-test/tests/client.rs:75-84` -/
example : ∀ s ∈ schedules, clientTest .default
    [([.send okLf], receiveErrorBecauseExpectedCrlfGotLf okLf)] s = true := by decide +kernel

/-- `response_with_missing_cr`, `/repo/integration-test/tests/client.rs:87-102` -/
example : ∀ s ∈ schedules, clientTest .default
    [greeted,
     ([.receive noop], sendCommand 0 noop),
     ([.send (ascii "A1 OK ...\n")], receiveErrorBecauseExpectedCrlfGotLf (ascii "A1 OK ...\n"))] s = true := by
  decide +kernel

/-- `crlf_relaxed`, `/repo/integration-test/tests/client.rs:105-128` -/
example : ∀ s ∈ schedules, clientTest { crlfRelaxed := true }
    [([.send okLf], receiveGreeting okLf),
     ([.receive noop], sendCommand 0 noop),
     ([.send (ascii "A1 OK ...\n")], receiveStatus (ascii "A1 OK ...\n")),
     ([.receive noop2], sendCommand 1 noop2),
     ([.send status2], receiveStatus status2)] s = true := by decide +kernel

/-- `login_with_literal`, `/repo/integration-test/tests/client.rs:131-149` -/
example : ∀ s ∈ schedules, clientTest .default
    [greeted,
     ([.receive (upTo login 14), .send more, .receive (slice login 14 25), .send more, .receive (from_ login 25)],
      sendCommand 0 login),
     ([.send statusNo], receiveStatus statusNo)] s = true := by decide +kernel

/-- `login_with_rejected_literal`, `/repo/integration-test/tests/client.rs:152-164` -/
example : ∀ s ∈ schedules, clientTest .default
    [greeted,
     ([.receive (upTo login 14), .send statusBad], sendRejectedCommand 0 login statusBad)] s = true := by decide +kernel

/-- `login_with_literal_and_unexpected_status`, `/repo/integration-test/tests/client.rs:167-204` -/
example : ∀ unexpected ∈ [status, statusNo], ∀ s ∈ schedules, clientTest .default
    [greeted,
     ([.receive (upTo login 14), .send unexpected, .send more, .receive (slice login 14 25), .send more,
       .receive (from_ login 25)],
      enqueueCommand 0 login ++ receiveStatus unexpected ++ progressCommand 0 login)] s = true := by decide +kernel

/-- `login_with_non_sync_literal`, `/repo/integration-test/tests/client.rs:207-218` -/
example : ∀ s ∈ schedules, clientTest .default
    [greeted,
     ([.receive loginNonSync], sendCommand 0 loginNonSync),
     ([.send statusNo], receiveStatus statusNo)] s = true := by decide +kernel

/-- The mock receives NOOP and answers. -/
def usable : List (List MockStep × List ClientStep) :=
  [([.receive noop2], sendCommand 1 noop2), ([.send status2], receiveStatus status2)]

/-- `idle_accepted`, `/repo/integration-test/tests/client.rs:221-253` -/
example : ∀ s ∈ schedules, clientTest .default
    ([greeted,
      ([.receive idle], sendIdle 0 idle),
      ([.send idling], receiveIdleAccepted 0 idling),
      ([.receive idleDone], sendIdleDone 0)] ++ usable) s = true := by decide +kernel

/-- `idle_rejected`, `/repo/integration-test/tests/client.rs:256-281` -/
example : ∀ s ∈ schedules, clientTest .default
    ([greeted,
      ([.receive idle], sendIdle 0 idle),
      ([.send rise], receiveIdleRejected 0 rise)] ++ usable) s = true := by decide +kernel

/-- `authenticate_accepted` and `authenticate_rejected`, `/repo/integration-test/tests/client.rs:284-312,364-392` -/
example : ∀ answer ∈ [success, abort], ∀ s ∈ schedules, clientTest .default
    ([greeted,
      ([.receive authenticateIr], sendAuthenticate 0 authenticateIr),
      ([.send answer], receiveAuthenticateStatus 0 authenticateIr answer)] ++ usable) s = true := by decide +kernel

/-- `authenticate_with_more_data_accepted` and `authenticate_with_more_data_rejected`,
`/repo/integration-test/tests/client.rs:315-361,395-441` -/
example : ∀ answer ∈ [success, abort], ∀ s ∈ schedules, clientTest .default
    ([greeted,
      ([.receive authenticate], sendAuthenticate 0 authenticate),
      ([.send authenticateMore], receiveAuthenticateContinuationRequest 0 authenticateMore),
      ([.receive authenticateData], setAuthenticateData 0 authenticateData ++ progressInternalCommands),
      ([.send answer], receiveAuthenticateStatus 0 authenticate answer)] ++ usable) s = true := by decide +kernel

end client

/-! ## `/repo/integration-test/tests/server.rs` -/

namespace server

/-- The default options. -/
def default : Except Panic ServerOptions := ServerOptions.default Imap.lib

/-- The server greets the mock. -/
def greeted : List ServerStep × List MockStep := (sendGreeting ok, [.receive ok])

/-- `noop`, `/repo/integration-test/tests/server.rs:6-17` -/
example : ∀ s ∈ schedules, serverTest default ok
    [greeted,
     (receiveCommand noop, [.send noop]),
     (sendStatus 0 status, [.receive status])] s = true := by decide +kernel

/-- `noop_with_large_lines`, `/repo/integration-test/tests/server.rs:20-44` -/
example : ∀ s ∈ schedules, serverTest default (large "* OK " 46)
    [(sendGreeting (large "* OK " 46), [.receive (large "* OK " 46)]),
     (receiveCommand noop, [.send noop]),
     (sendStatus 0 (large "A1 OK " 46), [.receive (large "A1 OK " 46)])] s = true := by decide +kernel

/-- `gibberish_instead_of_command`, `/repo/integration-test/tests/server.rs:47-58` -/
example : ∀ s ∈ schedules, serverTest default ok
    [greeted, (receiveErrorBecauseMalformedMessage gibberish, [.send gibberish])] s = true := by decide +kernel

/-- `command_with_missing_cr`, `/repo/integration-test/tests/server.rs:61-73` -/
example : ∀ s ∈ schedules, serverTest default ok
    [greeted,
     (receiveErrorBecauseExpectedCrlfGotLf (ascii "A1 NOOP\n"), [.send (ascii "A1 NOOP\n")])] s = true := by decide +kernel

/-- `crlf_relaxed`, `/repo/integration-test/tests/server.rs:76-98` -/
example : ∀ s ∈ schedules, serverTest (options fun o => .ok ({ o with crlfRelaxed := true }, .ok ())) ok
    [greeted,
     (receiveCommand (ascii "A1 NOOP\n"), [.send (ascii "A1 NOOP\n")]),
     (sendStatus 0 status, [.receive status]),
     (receiveCommand noop2, [.send noop2]),
     (sendStatus 1 status2, [.receive status2])] s = true := by decide +kernel

/-- `login_with_literal`, `/repo/integration-test/tests/server.rs:101-136` -/
example : ∀ n ∈ [5, 6, 10, 100], ∀ s ∈ schedules,
    serverTest (options fun o => { o with maxLiteralSize := n }.setLiteralAcceptText Imap.lib (ascii "You shall pass")) ok
      [greeted,
       (receiveCommand login,
        [.send (upTo login 14), .receive (ascii "+ You shall pass\r\n"), .send (slice login 14 25),
         .receive (ascii "+ You shall pass\r\n"), .send (from_ login 25)]),
       (sendStatus 0 statusNo, [.receive statusNo])] s = true := by decide +kernel

/-- `login_with_rejected_literal`, `/repo/integration-test/tests/server.rs:139-166` -/
example : ∀ n ∈ [0, 1, 4], ∀ s ∈ schedules,
    serverTest (options fun o => { o with maxLiteralSize := n }.setLiteralRejectText Imap.lib (ascii "You shall not pass")) ok
      [greeted,
       (receiveErrorBecauseLiteralTooLong (upTo login 14), [.send (upTo login 14)]),
       (progressInternalResponses, [.receive (ascii "A1 BAD You shall not pass\r\n")])] s = true := by decide +kernel

/-- `login_with_non_sync_literal`, `/repo/integration-test/tests/server.rs:169-180` -/
example : ∀ s ∈ schedules, serverTest default ok
    [greeted,
     (receiveCommand loginNonSync, [.send loginNonSync]),
     (sendStatus 0 statusNo, [.receive statusNo])] s = true := by decide +kernel

/-- `command_larger_than_max_command_size`, `/repo/integration-test/tests/server.rs:183-213`, without 10 MiB -/
example : ∀ n ∈ [9, 10, 20, 100], ∀ s ∈ schedules,
    serverTest (options fun o => .ok ({ o with maxCommandSize := n }, .ok ())) ok
      [greeted,
       (receiveCommand noop, [.send noop]),
       (receiveErrorBecauseCommandTooLong (List.replicate n 46), [.send (List.replicate (n + 1) 46)])] s = true := by
  decide +kernel

/-- The login of the next test. -/
def largeLogin (n : Nat) : Bytes :=
  ascii "A1 LOGIN {3}\r\nABC {" ++ [UInt8.ofNat (48 + n)] ++ ascii "}\r\n" ++ List.replicate n 46 ++ ascii "\r\n"

/-- `command_with_literals_larger_than_max_command_size`, `/repo/integration-test/tests/server.rs:216-278` -/
example : ∀ n ∈ [4, 5, 6, 7, 8, 9], ∀ s ∈ schedules,
    serverTest (options fun o =>
        { o with maxLiteralSize := n, maxCommandSize := 28 }.setLiteralAcceptText Imap.lib (ascii "more data")) ok
      [greeted,
       (receiveCommand (largeLogin 3),
        [.send (upTo (largeLogin 3) 14), .receive (ascii "+ more data\r\n"), .send (slice (largeLogin 3) 14 25),
         .receive (ascii "+ more data\r\n"), .send (from_ (largeLogin 3) 25)]),
       (receiveErrorBecauseCommandTooLong (upTo (largeLogin n) 28),
        [.send (upTo (largeLogin n) 14), .receive (ascii "+ more data\r\n"), .send (slice (largeLogin n) 14 25),
         .receive (ascii "+ more data\r\n"), .send (from_ (largeLogin n) 25)])] s = true := by decide +kernel

/-- The mock sends NOOP and receives the answer. -/
def usable (n : Nat) : List (List ServerStep × List MockStep) :=
  [(receiveCommand noop2, [.send noop2]), (sendStatus n status2, [.receive status2])]

/-- `idle_accepted`, `/repo/integration-test/tests/server.rs:281-310` -/
example : ∀ s ∈ schedules, serverTest default ok
    ([greeted,
      (receiveIdle idle, [.send idle]),
      (sendIdleAccepted 0 idling, [.receive idling]),
      (receiveIdleDone, [.send idleDone])] ++ usable 1) s = true := by decide +kernel

/-- `idle_rejected`, `/repo/integration-test/tests/server.rs:313-335` -/
example : ∀ s ∈ schedules, serverTest default ok
    ([greeted,
      (receiveIdle idle, [.send idle]),
      (sendIdleRejected 0 rise, [.receive rise])] ++ usable 1) s = true := by decide +kernel

/-- `authenticate_accepted` and `authenticate_rejected`, `/repo/integration-test/tests/server.rs:338-366,414-442` -/
example : ∀ answer ∈ [success, abort], ∀ s ∈ schedules, serverTest default ok
    ([greeted,
      (receiveAuthenticateCommand authenticateIr, [.send authenticateIr]),
      (sendAuthenticateFinish 0 answer, [.receive answer])] ++ usable 1) s = true := by decide +kernel

/-- `authenticate_with_more_data_accepted` and `authenticate_with_more_data_rejected`,
`/repo/integration-test/tests/server.rs:369-411,445-487` -/
example : ∀ answer ∈ [success, abort], ∀ s ∈ schedules, serverTest default ok
    ([greeted,
      (receiveAuthenticateCommand authenticate, [.send authenticate]),
      (sendAuthenticateContinue 0 authenticateMore, [.receive authenticateMore]),
      (receiveAuthenticateData authenticateData, [.send authenticateData]),
      (sendAuthenticateFinish 1 answer, [.receive answer])] ++ usable 2) s = true := by decide +kernel

end server

/-! ## `/repo/integration-test/tests/client_server.rs` -/

/-- The server greets the client. -/
def greeted : List ClientStep × List ServerStep := (client.receiveGreeting ok, server.sendGreeting ok)

/-- `noop`, `/repo/integration-test/tests/client_server.rs:6-20` -/
example : ∀ s ∈ schedules, clientServerTest server.default ok
    [greeted,
     (client.sendCommand 0 noop, server.receiveCommand noop),
     (client.receiveStatus status, server.sendStatus 0 status)] s = true := by decide +kernel

/-- `send_large_messages_in_parallel`, `/repo/integration-test/tests/client_server.rs:23-64` -/
def sendLargeMessagesInParallel : Schedule → Bool :=
  clientServerTest (options fun o => .ok ({ o with maxLiteralSize := 4294967295, maxCommandSize := 4294967295 }, .ok ())) ok
    [greeted,
     (client.sendCommand 0 noop, server.receiveCommand noop),
     (client.sendCommand 1 (large "A1 LOGIN ABCDE " 120), server.sendStatus 0 (large "A1 OK " 46)),
     (client.receiveStatus (large "A1 OK " 46), server.receiveCommand (large "A1 LOGIN ABCDE " 120))]

/-- The test succeeds if writing is preferred. -/
example : ∀ s ∈ schedules, s.readFirst = false → sendLargeMessagesInParallel s = true := by decide +kernel

/-- The test does not succeed with every schedule.  If the server reads the whole command before it has written the status,
`ResponseSent` is reported although the status is still in the write buffer (see `C31_false`), and the next call of `next` reports
`CommandReceived` without writing anything.  Then the server has done all its steps and the client waits for the status. -/
example : sendLargeMessagesInParallel ⟨1000000, true⟩ = false := by decide +kernel

/-- `login_with_literal`, `/repo/integration-test/tests/client_server.rs:67-95` (the test uses the default options) -/
example : ∀ s ∈ schedules, clientServerTest server.default ok
    [greeted,
     (client.sendCommand 0 login, server.receiveCommand login),
     (client.receiveStatus statusNo, server.sendStatus 0 statusNo)] s = true := by decide +kernel

/-- `login_with_rejected_literal`, `/repo/integration-test/tests/client_server.rs:98-128` -/
example : ∀ n ∈ [0, 1, 4], ∀ s ∈ schedules,
    clientServerTest
      (options fun o => { o with maxLiteralSize := n }.setLiteralRejectText Imap.lib (ascii "You shall not pass")) ok
      [greeted,
       (client.sendRejectedCommand 0 login (ascii "A1 BAD You shall not pass\r\n"),
        server.receiveErrorBecauseLiteralTooLong (upTo login 14) ++ server.progressInternalResponses)] s = true := by
  decide +kernel

/-- `login_with_non_sync_literal`, `/repo/integration-test/tests/client_server.rs:131-145` -/
example : ∀ s ∈ schedules, clientServerTest server.default ok
    [greeted,
     (client.sendCommand 0 loginNonSync, server.receiveCommand loginNonSync),
     (client.receiveStatus statusNo, server.sendStatus 0 statusNo)] s = true := by decide +kernel

/-- The client sends NOOP and receives the answer. -/
def usable (n : Nat) : List (List ClientStep × List ServerStep) :=
  [(client.sendCommand 1 noop2, server.receiveCommand noop2), (client.receiveStatus status2, server.sendStatus n status2)]

/-- `idle_accepted`, `/repo/integration-test/tests/client_server.rs:148-181` -/
example : ∀ s ∈ schedules, clientServerTest server.default ok
    ([greeted,
      (client.sendIdle 0 idle, server.receiveIdle idle),
      (client.receiveIdleAccepted 0 idling, server.sendIdleAccepted 0 idling),
      (client.sendIdleDone 0, server.receiveIdleDone)] ++ usable 1) s = true := by decide +kernel

/-- `idle_rejected`, `/repo/integration-test/tests/client_server.rs:184-211` -/
example : ∀ s ∈ schedules, clientServerTest server.default ok
    ([greeted,
      (client.sendIdle 0 idle, server.receiveIdle idle),
      (client.receiveIdleRejected 0 rise, server.sendIdleRejected 0 rise)] ++ usable 1) s = true := by decide +kernel

/-- `authenticate_accepted` and `authenticate_rejected`, `/repo/integration-test/tests/client_server.rs:214-244,295-325` -/
example : ∀ answer ∈ [success, abort], ∀ s ∈ schedules, clientServerTest server.default ok
    ([greeted,
      (client.sendAuthenticate 0 authenticate, server.receiveAuthenticateCommand authenticate),
      (client.receiveAuthenticateStatus 0 authenticate answer, server.sendAuthenticateFinish 0 answer)] ++ usable 1) s =
        true := by decide +kernel

/-- `authenticate_with_more_data_accepted` and `authenticate_with_more_data_rejected`,
`/repo/integration-test/tests/client_server.rs:247-292,328-373` -/
example : ∀ answer ∈ [success, abort], ∀ s ∈ schedules, clientServerTest server.default ok
    ([greeted,
      (client.sendAuthenticate 0 authenticate, server.receiveAuthenticateCommand authenticate),
      (client.receiveAuthenticateContinuationRequest 0 authenticateMore,
       server.sendAuthenticateContinue 0 authenticateMore),
      (client.setAuthenticateData 0 authenticateData ++ client.progressInternalCommands,
       server.receiveAuthenticateData authenticateData),
      (client.receiveAuthenticateStatus 0 authenticate answer, server.sendAuthenticateFinish 1 answer)] ++ usable 2) s =
        true := by decide +kernel

/-! ## `/repo/src/tests.rs` -/

/-- `self_test`, `/repo/src/tests.rs:15-85`: the server answers AUTHENTICATE with an ordinary status. -/
example : ∀ s ∈ schedules, clientServerTest server.default (ascii "* OK Hello, World!\r\n")
    [(client.enqueueCommand 0 (ascii "A1 CAPABILITY\r\n") ++
        client.receiveGreeting (ascii "* OK Hello, World!\r\n") ++ client.progressCommand 0 (ascii "A1 CAPABILITY\r\n") ++
        client.receiveStatus statusNo ++ client.enqueueCommand 1 (ascii "A2 AUTHENTICATE PLAIN\r\n") ++
        [.next (.ok (.authenticateStarted (handle 1)))] ++
        client.receiveAuthenticateStatus 1 (ascii "A2 AUTHENTICATE PLAIN\r\n") (ascii "A2 NO ...\r\n"),
      server.sendGreeting (ascii "* OK Hello, World!\r\n") ++ server.receiveCommand (ascii "A1 CAPABILITY\r\n") ++
        server.sendStatus 0 statusNo ++ server.receiveAuthenticateCommand (ascii "A2 AUTHENTICATE PLAIN\r\n") ++
        server.sendStatus 1 (ascii "A2 NO ...\r\n"))] s = true := by decide +kernel

end ImapFlow.Upstream
