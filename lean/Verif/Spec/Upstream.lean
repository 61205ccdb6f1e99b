import Verif.Spec.Imap
import Verif.Spec.StreamTrace
import Verif.Spec.ClientHistory
import Verif.Spec.ServerHistory

/-!
# The test harness of `/repo/integration-test`

The testers and the mock of `/repo/integration-test/src`, on the model and with the codec `Imap.lib`.  The tests themselves are
in `Verif.Spec.UpstreamTests`.  They are tests of the model, not proofs: the expected results were written by the authors of the
code, and the model has to reproduce them.

The two sides are connected by two pipes (the TCP connection).  A `Schedule` fixes how many bytes a read or write moves at most
and which branch of `select!` is preferred; the tests are run with several schedules.
-/

namespace ImapFlow.Upstream

/-- How the sockets behave. -/
structure Schedule where
  /-- at most this many bytes are read or written at once -/
  chunk : Nat
  /-- `select!` prefers reading -/
  readFirst : Bool

/-- The schedules used for each test. -/
def schedules : List Schedule := [⟨1000000, false⟩, ⟨1, true⟩, ⟨4, false⟩, ⟨7, true⟩]

/-! ## Testers -/

/-- What a tester does. -/
inductive Step (ε ev ι obs : Type) where
  /-- the data of the test is well-formed -/
  | check (b : Bool)
  /-- call a method and check its result -/
  | call (op : ι) (result : obs)
  /-- `stream.next(..).await`, and check the result -/
  | next (result : Except (StreamError ε) ev)
  /-- `stream.next(..).await`, which must not return, `/repo/integration-test/src/client_tester.rs:154-159` -/
  | pending

section
variable {σ ε ev ι obs : Type} [DecidableEq ε] [DecidableEq ev] [DecidableEq obs]

/-- What the stream awaits happens, or `next` is called; `none` if it has to wait. -/
def resume (s : Schedule) (M : Machine σ ε ev ι) (c : StreamConf σ) (inbox outbox : Bytes) :
    Option (StreamConf σ × List (StreamItem ε ev ι) × Bytes × Bytes) :=
  let read := (c.step M (.read (inbox.take s.chunk))).map fun r => (r.1, r.2, inbox.drop s.chunk, outbox)
  let write := (c.step M (.write (min s.chunk c.writeBuffer.length))).map
    fun r => (r.1, r.2, inbox, outbox ++ c.writeBuffer.take s.chunk)
  match c.ctl with
  | .idle => (c.step M .callNext).map fun r => (r.1, r.2, inbox, outbox)
  | .reading => if inbox.isEmpty then none else read
  | .racing => if s.readFirst && !inbox.isEmpty then read else write
  | _ => none

/-- Run a tester until it is finished or has to wait; `none` if a check fails. -/
def runTester (s : Schedule) (M : Machine σ ε ev ι) (call : σ → ι → Except Panic (σ × obs)) :
    Nat → StreamConf σ → List (Step ε ev ι obs) → Bytes → Bytes →
      Option (StreamConf σ × List (Step ε ev ι obs) × Bytes × Bytes)
  | 0, _, _, _, _ => none
  | _ + 1, c, [], inbox, outbox => some (c, [], inbox, outbox)
  | n + 1, c, .check b :: steps, inbox, outbox => if b then runTester s M call n c steps inbox outbox else none
  | n + 1, c, .call op result :: steps, inbox, outbox =>
    match c.ctl, call c.state op with
    | .idle, .ok (state, r) => if r = result then runTester s M call n { c with state } steps inbox outbox else none
    | _, _ => none
  | n + 1, c, .next result :: steps, inbox, outbox =>
    match resume s M c inbox outbox with
    | none => some (c, .next result :: steps, inbox, outbox)
    | some (c, items, inbox, outbox) =>
      match items.getLast? with
      | some (.returned r) => if r = result then runTester s M call n c steps inbox outbox else none
      | some (.panicked _) => none
      | _ => runTester s M call n c (.next result :: steps) inbox outbox
  | n + 1, c, .pending :: steps, inbox, outbox =>
    match resume s M c inbox outbox with
    | none => some (c, .pending :: steps, inbox, outbox)
    | some (c, items, inbox, outbox) =>
      match items.getLast? with
      | some (.returned _) => none
      | some (.panicked _) => none
      | _ => runTester s M call n c (.pending :: steps) inbox outbox

end

/-- One side of a test. -/
structure Actor (α step : Type) where
  /-- run until finished or waiting -/
  run : α → List step → Bytes → Bytes → Option (α × List step × Bytes × Bytes)
  /-- finished, or to be dropped -/
  over : List step → Bool
  /-- drop what is pending -/
  drop : α → α

/-- The stream with its pending future dropped. -/
def dropPending {σ : Type} (c : StreamConf σ) : StreamConf σ := { c with ctl := .idle }

/-- Only something that never returns is left. -/
def over {ε ev ι obs : Type} : List (Step ε ev ι obs) → Bool
  | [] | [.pending] => true
  | _ => false

abbrev ClientStep := Step ClientError ClientEvent ClientOp ClientObs
abbrev ServerStep := Step ServerError ServerEvent ServerOp ServerObs

/-- `ClientTester`, `/repo/integration-test/src/client_tester.rs`. -/
def clientTester (s : Schedule) : Actor (StreamConf Client) ClientStep where
  run := runTester s (clientMachine Imap.lib) (fun c op => c.call Imap.lib op) 10000
  over := over
  drop := dropPending

/-- `ServerTester`, `/repo/integration-test/src/server_tester.rs`. -/
def serverTester (s : Schedule) : Actor (StreamConf Server) ServerStep where
  run := runTester s (serverMachine Imap.lib) (fun c op => c.call Imap.lib op) 10000
  over := over
  drop := dropPending

/-- What the mock does, `/repo/integration-test/src/mock.rs`. -/
inductive MockStep where
  | send (bytes : Bytes)
  | receive (bytes : Bytes)

/-- Run the mock until it is finished or has to wait; `none` if a check fails. -/
def runMock : Unit → List MockStep → Bytes → Bytes → Option (Unit × List MockStep × Bytes × Bytes)
  | _, [], inbox, outbox => some ((), [], inbox, outbox)
  | _, .send bytes :: steps, inbox, outbox => runMock () steps inbox (outbox ++ bytes)
  | _, .receive bytes :: steps, inbox, outbox =>
    if inbox.length < bytes.length then
      if inbox.isPrefixOf bytes then some ((), .receive bytes :: steps, inbox, outbox) else none
    else if bytes.isPrefixOf inbox then runMock () steps (inbox.drop bytes.length) outbox
    else none

/-- `Mock`, `/repo/integration-test/src/mock.rs`. -/
def mock : Actor Unit MockStep where
  run := runMock
  over := List.isEmpty
  drop := id

section
variable {α β sa sb : Type}

/-- Both sides run in turn until both are finished, `/repo/integration-test/src/runtime.rs:50-70`. -/
def run2 (A : Actor α sa) (B : Actor β sb) :
    Nat → α → β → List sa → List sb → Bytes → Bytes → Option (α × β × Bytes × Bytes)
  | 0, _, _, _, _, _, _ => none
  | n + 1, a, b, as, bs, ab, ba =>
    match A.run a as ba ab with
    | none => none
    | some (a, as, ba, ab) =>
      match B.run b bs ab ba with
      | none => none
      | some (b, bs, ab, ba) =>
        if A.over as && B.over bs then some (A.drop a, B.drop b, ab, ba) else run2 A B n a b as bs ab ba

/-- The steps of a test, one after another. -/
def phases (A : Actor α sa) (B : Actor β sb) :
    α → β → List (List sa × List sb) → Bytes → Bytes → Option (α × β × Bytes × Bytes)
  | a, b, [], ab, ba => some (a, b, ab, ba)
  | a, b, (as, bs) :: rest, ab, ba =>
    match run2 A B 1000 a b as bs ab ba with
    | none => none
    | some (a, b, ab, ba) => phases A B a b rest ab ba

/-- The test succeeds. -/
def passes (A : Actor α sa) (B : Actor β sb) (a : α) (b : β) (test : List (List sa × List sb)) : Bool :=
  (phases A B a b test [] []).isSome

end

/-! ## Codecs, `/repo/integration-test/src/codecs.rs` -/

/-- The whole input is the message, and the message is encoded like this. -/
def normalized {ε μ : Type} (dec : Decoder ε μ) (enc : μ → List Fragment) (bytes : Bytes) : Bool :=
  match dec bytes with
  | .ok (rem, m) => rem.isEmpty && ((enc m).map Fragment.data).flatten == bytes
  | .error _ => false

/-- The whole input is the message. -/
def whole {ε μ : Type} (dec : Decoder ε μ) (bytes : Bytes) : Bool :=
  match dec bytes with
  | .ok (rem, _) => rem.isEmpty
  | .error _ => false

def decodeGreeting (bytes : Bytes) : Greeting :=
  match Imap.lib.decodeGreeting bytes with
  | .ok (_, m) => m
  | .error _ => ⟨.bye, none, []⟩

def decodeCommand (bytes : Bytes) : Command :=
  match Imap.lib.decodeCommand bytes with
  | .ok (_, m) => m
  | .error _ => ⟨[], .idle⟩

def decodeAuthenticateData (bytes : Bytes) : AuthenticateData :=
  match Imap.lib.decodeAuthenticateData bytes with
  | .ok (_, m) => m
  | .error _ => .cancel

def decodeResponse (bytes : Bytes) : Response :=
  match Imap.lib.decodeResponse bytes with
  | .ok (_, m) => m
  | .error _ => .data (.other [])

def decodeStatus (bytes : Bytes) : Status :=
  match decodeResponse bytes with
  | .status status => status
  | _ => .bye none []

def decodeContinuationRequest (bytes : Bytes) : ContinuationRequest :=
  match decodeResponse bytes with
  | .continuationRequest request => request
  | _ => .base64 []

def decodeData (bytes : Bytes) : Data :=
  match decodeResponse bytes with
  | .data data => data
  | _ => .other []

def greetingOk (bytes : Bytes) : Bool := whole Imap.lib.decodeGreeting bytes
def commandOk (bytes : Bytes) : Bool := normalized Imap.lib.decodeCommand Imap.lib.encodeCommand bytes
def dataOk (bytes : Bytes) : Bool := normalized Imap.lib.decodeAuthenticateData Imap.lib.encodeAuthenticateData bytes
def statusOk (bytes : Bytes) : Bool :=
  whole Imap.lib.decodeResponse bytes && match decodeResponse bytes with | .status _ => true | _ => false
def requestOk (bytes : Bytes) : Bool :=
  whole Imap.lib.decodeResponse bytes && match decodeResponse bytes with | .continuationRequest _ => true | _ => false
def responseNormalized (bytes : Bytes) : Bool := normalized Imap.lib.decodeResponse Imap.lib.encodeResponse bytes

/-! ## The methods of the testers -/

/-- The `n`-th handle of the client or server under test. -/
def handle (n : Nat) : RawHandle := ⟨0, UInt64.ofNat n⟩

namespace client

def receiveGreeting (bytes : Bytes) : List ClientStep :=
  [.check (greetingOk bytes), .next (.ok (.greetingReceived (decodeGreeting bytes)))]

def enqueueCommand (n : Nat) (bytes : Bytes) : List ClientStep :=
  [.check (commandOk bytes), .call (.enqueueCommand (decodeCommand bytes)) (.enqueued (handle n) (decodeCommand bytes))]

def progressCommand (n : Nat) (bytes : Bytes) : List ClientStep :=
  [.next (.ok (.commandSent (handle n) (decodeCommand bytes)))]

def sendCommand (n : Nat) (bytes : Bytes) : List ClientStep := enqueueCommand n bytes ++ progressCommand n bytes

def sendRejectedCommand (n : Nat) (bytes status : Bytes) : List ClientStep :=
  enqueueCommand n bytes ++
    [.check (statusOk status), .next (.ok (.commandRejected (handle n) (decodeCommand bytes) (decodeStatus status)))]

def sendIdle (n : Nat) (bytes : Bytes) : List ClientStep :=
  enqueueCommand n bytes ++ [.next (.ok (.idleCommandSent (handle n)))]

def sendIdleDone (n : Nat) : List ClientStep :=
  [.call .setIdleDone (.setIdleDone (some (handle n))), .next (.ok (.idleDoneSent (handle n)))]

def sendAuthenticate (n : Nat) (bytes : Bytes) : List ClientStep :=
  enqueueCommand n bytes ++ [.next (.ok (.authenticateStarted (handle n)))]

def setAuthenticateData (n : Nat) (bytes : Bytes) : List ClientStep :=
  [.check (dataOk bytes),
   .call (.setAuthenticateData (decodeAuthenticateData bytes))
     (.setAuthenticateData (decodeAuthenticateData bytes) (.ok (handle n)))]

def progressInternalCommands : List ClientStep := [.pending]

def receiveStatus (bytes : Bytes) : List ClientStep :=
  [.check (statusOk bytes), .next (.ok (.statusReceived (decodeStatus bytes)))]

def receiveData (bytes : Bytes) : List ClientStep :=
  [.check (whole Imap.lib.decodeResponse bytes), .next (.ok (.dataReceived (decodeData bytes)))]

def receiveIdleAccepted (n : Nat) (bytes : Bytes) : List ClientStep :=
  [.check (requestOk bytes), .next (.ok (.idleAccepted (handle n) (decodeContinuationRequest bytes)))]

def receiveIdleRejected (n : Nat) (bytes : Bytes) : List ClientStep :=
  [.check (statusOk bytes), .next (.ok (.idleRejected (handle n) (decodeStatus bytes)))]

def receiveAuthenticateContinuationRequest (n : Nat) (bytes : Bytes) : List ClientStep :=
  [.check (requestOk bytes),
   .next (.ok (.authenticateContinuationRequestReceived (handle n) (decodeContinuationRequest bytes)))]

/-- The AUTHENTICATE command of a command. -/
def commandAuthenticate (c : Command) : CommandAuthenticate :=
  match c.body with
  | .authenticate mechanism ir => ⟨c.tag, mechanism, ir⟩
  | _ => ⟨[], .plain, none⟩

def receiveAuthenticateStatus (n : Nat) (authenticate status : Bytes) : List ClientStep :=
  [.check (commandOk authenticate), .check (statusOk status),
   .next (.ok (.authenticateStatusReceived (handle n) (commandAuthenticate (decodeCommand authenticate)) (decodeStatus status)))]

def receiveErrorBecauseExpectedCrlfGotLf (bytes : Bytes) : List ClientStep :=
  [.next (.error (.state (.expectedCrlfGotLf bytes)))]

def receiveErrorBecauseMalformedMessage (bytes : Bytes) : List ClientStep :=
  [.next (.error (.state (.malformedMessage bytes)))]

end client

namespace server

/-- `Server::new` is in `serverTest`. -/
def sendGreeting (bytes : Bytes) : List ServerStep :=
  [.check (normalized Imap.lib.decodeGreeting Imap.lib.encodeGreeting bytes),
   .next (.ok (.greetingSent (decodeGreeting bytes)))]

def sendData (n : Nat) (bytes : Bytes) : List ServerStep :=
  [.check (responseNormalized bytes),
   .call (.enqueueData (decodeData bytes)) (.enqueued (handle n) (decodeResponse bytes)),
   .next (.ok (.responseSent (handle n) (decodeResponse bytes)))]

def enqueueStatus (n : Nat) (bytes : Bytes) : List ServerStep :=
  [.check (responseNormalized bytes),
   .call (.enqueueStatus (decodeStatus bytes)) (.enqueued (handle n) (decodeResponse bytes))]

def progressResponse (n : Nat) (bytes : Bytes) : List ServerStep :=
  [.next (.ok (.responseSent (handle n) (decodeResponse bytes)))]

def sendStatus (n : Nat) (bytes : Bytes) : List ServerStep := enqueueStatus n bytes ++ progressResponse n bytes

def sendIdleAccepted (n : Nat) (bytes : Bytes) : List ServerStep :=
  [.check (responseNormalized bytes),
   .call (.idleAccept (decodeContinuationRequest bytes)) (.idleAccept (decodeContinuationRequest bytes) (.ok (handle n)))] ++
    progressResponse n bytes

def sendIdleRejected (n : Nat) (bytes : Bytes) : List ServerStep :=
  [.check (responseNormalized bytes),
   .call (.idleReject (decodeStatus bytes)) (.idleReject (decodeStatus bytes) (.ok (handle n)))] ++ progressResponse n bytes

def sendAuthenticateContinue (n : Nat) (bytes : Bytes) : List ServerStep :=
  [.check (responseNormalized bytes),
   .call (.authenticateContinue (decodeContinuationRequest bytes))
     (.authenticateContinue (decodeContinuationRequest bytes) (.ok (handle n)))] ++ progressResponse n bytes

def sendAuthenticateFinish (n : Nat) (bytes : Bytes) : List ServerStep :=
  [.check (responseNormalized bytes),
   .call (.authenticateFinish (decodeStatus bytes)) (.authenticateFinish (decodeStatus bytes) (.ok (handle n)))] ++
    progressResponse n bytes

def progressInternalResponses : List ServerStep := [.pending]

def receiveErrorBecauseExpectedCrlfGotLf (bytes : Bytes) : List ServerStep :=
  [.next (.error (.state (.expectedCrlfGotLf bytes)))]

def receiveErrorBecauseMalformedMessage (bytes : Bytes) : List ServerStep :=
  [.next (.error (.state (.malformedMessage bytes)))]

def receiveErrorBecauseLiteralTooLong (bytes : Bytes) : List ServerStep :=
  [.next (.error (.state (.literalTooLong bytes)))]

def receiveErrorBecauseCommandTooLong (bytes : Bytes) : List ServerStep :=
  [.next (.error (.state (.commandTooLong bytes)))]

def receiveCommand (bytes : Bytes) : List ServerStep :=
  [.check (whole Imap.lib.decodeCommand bytes), .next (.ok (.commandReceived (decodeCommand bytes)))]

def receiveIdle (bytes : Bytes) : List ServerStep :=
  [.check (whole Imap.lib.decodeCommand bytes), .next (.ok (.idleCommandReceived (decodeCommand bytes).tag))]

def receiveIdleDone : List ServerStep := [.next (.ok .idleDoneReceived)]

def receiveAuthenticateCommand (bytes : Bytes) : List ServerStep :=
  [.check (whole Imap.lib.decodeCommand bytes),
   .next (.ok (.commandAuthenticateReceived (client.commandAuthenticate (decodeCommand bytes))))]

def receiveAuthenticateData (bytes : Bytes) : List ServerStep :=
  [.check (whole Imap.lib.decodeAuthenticateData bytes),
   .next (.ok (.authenticateDataReceived (decodeAuthenticateData bytes)))]

end server

/-! ## Test setups, `/repo/integration-test/src/test_setup.rs` -/

/-- The handle generator of the client or server under test. -/
def generator : HandleGenerator := ⟨0, 0⟩

/-- `setup_client`: the mock is the server. -/
def clientTest (o : ClientOptions) (test : List (List MockStep × List ClientStep)) (s : Schedule) : Bool :=
  passes mock (clientTester s) () (.insecure (Client.new generator o)) test

/-- `setup_server`: the mock is the client.  The greeting is given to `Server::new`. -/
def serverTest (o : Except Panic ServerOptions) (greeting : Bytes) (test : List (List ServerStep × List MockStep))
    (s : Schedule) : Bool :=
  match o with
  | .ok o => passes (serverTester s) mock (.insecure (Server.new generator o (decodeGreeting greeting))) () test
  | .error _ => false

/-- `setup`: client and server. -/
def clientServerTest (o : Except Panic ServerOptions) (greeting : Bytes) (test : List (List ClientStep × List ServerStep))
    (s : Schedule) : Bool :=
  match o with
  | .ok o =>
    passes (clientTester s) (serverTester s) (.insecure (Client.new generator .default))
      (.insecure (Server.new generator o (decodeGreeting greeting))) test
  | .error _ => false

/-- The default options with changes. -/
def options (f : ServerOptions → Except Panic (ServerOptions × Except Bytes Unit)) : Except Panic ServerOptions :=
  match ServerOptions.default Imap.lib with
  | .error p => .error p
  | .ok o =>
    match f o with
    | .ok (o, .ok ()) => .ok o
    | .ok (_, .error _) => .error .unwrapFailed
    | .error p => .error p

end ImapFlow.Upstream
