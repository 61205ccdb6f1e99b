import Verif.Spec.ServerHistory
import Verif.Spec.Framing
import Verif.Spec.Codec

/-!
# Traces of a server

A trace refines a history (`Spec/ServerHistory.lean`): it additionally shows which bytes a received
message occupied on the wire, the end of responses the server generated itself, the literals it
accepted, and the responses it generated itself.  `erase` forgets these; `Server.trace_erase` (in
`Proofs/ServerTrace.lean`) states that erasing the trace gives exactly the history.

`ServerView` is the bookkeeping of an outside observer of a trace; it does not look into the server.
-/

namespace ImapFlow

/-- One observable step of a server. -/
inductive SItem where
  /-- `enqueue_data`, `enqueue_status`, `enqueue_continuation_request` -/
  | enqueue (handle : RawHandle) (response : Response)
  /-- `authenticate_continue` with its result -/
  | authContinue (request : ContinuationRequest) (result : Except ContinuationRequest RawHandle)
  /-- `authenticate_finish` with its result -/
  | authFinish (status : Status) (result : Except Status RawHandle)
  /-- `idle_accept` with its result -/
  | idleAccept (request : ContinuationRequest) (result : Except ContinuationRequest RawHandle)
  /-- `idle_reject` with its result -/
  | idleReject (status : Status) (result : Except Status RawHandle)
  /-- `enqueue_input` -/
  | input (bytes : Bytes)
  /-- `next` returned `Output(bytes)` -/
  | output (bytes : Bytes)
  /-- `next` returned an event of the sending side -/
  | sent (event : ServerEvent)
  /-- inside `next`: the sending of a response generated by the server itself ended -/
  | quiet
  /-- `next` returned an event of the receiving side; `bytes` are the bytes of the message -/
  | received (bytes : Bytes) (event : ServerEvent)
  /-- inside `next`: the bytes `seen` of the current command announced a literal that is accepted;
  `replies` are the responses generated by the server -/
  | literal (seen : Bytes) (replies : List ServerMessage)
  /-- `next` returned an error; `replies` are the responses generated by the server -/
  | failed (error : ServerError) (replies : List ServerMessage)
  /-- `next` returned `NeedMoreInput` -/
  | starved
  deriving DecidableEq, Repr

/-- The history of a trace. -/
def SItem.erase : SItem → Option ServerObs
  | .enqueue h r => some (.enqueued h r)
  | .authContinue q r => some (.authenticateContinue q r)
  | .authFinish st r => some (.authenticateFinish st r)
  | .idleAccept q r => some (.idleAccept q r)
  | .idleReject st r => some (.idleReject st r)
  | .input b => some (.input b)
  | .output b => some (.next (.error (.io (.output b))))
  | .sent e => some (.next (.ok e))
  | .quiet => none
  | .received _ e => some (.next (.ok e))
  | .literal .. => none
  | .failed e _ => some (.next (.error (.error e)))
  | .starved => some (.next (.error (.io .needMoreInput)))

/-- The state of receiving, if any. -/
def Server.rx (s : Server) : Option ReceiveState :=
  match s.receiveState with
  | .command st | .authenticateData st | .idleAccept st | .idleDone st => some st
  | .dummy => none

/-- The receive buffer of a server. -/
def Server.buffer (s : Server) : Bytes :=
  match s.rx with
  | some st => st.readBuffer
  | none => []

/-- The bytes of the current message that were already looked at. -/
def Server.seen (s : Server) : Bytes :=
  match s.rx with
  | some st => st.readBuffer.take st.seenBytes
  | none => []

/-- The bytes that left the buffer between two states. -/
def Server.consumed (before after : Server) : Bytes :=
  before.buffer.take (before.buffer.length - after.buffer.length)

/-- The responses that were queued between two states. -/
def Server.replies (before after : Server) : List ServerMessage :=
  after.sendState.queuedMessages.drop before.sendState.queuedMessages.length

/-- What the call of `progress_send` did that does not interrupt `next`. -/
def Server.quietItems (s : Server) : List SItem :=
  if s.sendState.currentMessage.isSome then [.quiet] else []

/-- `Server::next` that records its steps.  Same structure as `Server.next`. -/
def Server.nextTrace (L : Lib) (s : Server) : Except Panic (Server × List SItem) :=
  match _hs : progressSend L s with
  | (s1, .error (.io (.output b))) => .ok (s1, [.output b])
  | (s1, .error (.io .needMoreInput)) => .ok (s1, [.starved])
  | (s1, .error (.error e)) => .ok (s1, [.failed e []])
  | (s1, .ok (some event)) => .ok (s1, [.sent event])
  | (s1, .ok none) =>
    match _hr : progressReceive L s1 with
    | .error p => .error p
    | .ok (s2, .error (.io (.output b))) => .ok (s2, quietItems s ++ [.output b])
    | .ok (s2, .error (.io .needMoreInput)) => .ok (s2, quietItems s ++ [.starved])
    | .ok (s2, .error (.error e)) => .ok (s2, quietItems s ++ [.failed e (replies s1 s2)])
    | .ok (s2, .ok (some event)) => .ok (s2, quietItems s ++ [.received (consumed s1 s2) event])
    | .ok (s2, .ok none) =>
      match Server.nextTrace L s2 with
      | .error p => .error p
      | .ok (s3, items) => .ok (s3, quietItems s ++ .literal s2.seen (replies s1 s2) :: items)
termination_by s.unread
decreasing_by
  have h1 := Server.progressSend_receiveState _hs
  have h2 := Server.progressReceive_unread _hr
  have h3 : s1.unread = s.unread := by simp [Server.unread, h1]
  omega

/-- One call with its trace. -/
def Server.callTrace (L : Lib) (s : Server) : ServerOp → Except Panic (Server × List SItem)
  | .enqueueData data =>
    let (s, handle) := s.enqueueData data
    .ok (s, [.enqueue handle (.data data)])
  | .enqueueStatus status =>
    let (s, handle) := s.enqueueStatus status
    .ok (s, [.enqueue handle (.status status)])
  | .enqueueContinuationRequest request =>
    let (s, handle) := s.enqueueContinuationRequest request
    .ok (s, [.enqueue handle (.continuationRequest request)])
  | .authenticateContinue request =>
    let (s, r) := s.authenticateContinue request
    .ok (s, [.authContinue request r])
  | .authenticateFinish status =>
    (s.authenticateFinish status).map fun (s, r) => (s, [.authFinish status r])
  | .idleAccept request => (s.idleAccept request).map fun (s, r) => (s, [.idleAccept request r])
  | .idleReject status => (s.idleReject status).map fun (s, r) => (s, [.idleReject status r])
  | .enqueueInput bytes => (s.enqueueInput bytes).map fun s => (s, [.input bytes])
  | .next => s.nextTrace L

/-- The trace of a list of calls; stops at a panic. -/
def Server.trace (L : Lib) (s : Server) : List ServerOp → Except Panic (Server × List SItem)
  | [] => .ok (s, [])
  | op :: ops =>
    match s.callTrace L op with
    | .error p => .error p
    | .ok (s, items) =>
      match Server.trace L s ops with
      | .error p => .error p
      | .ok (s, T) => .ok (s, items ++ T)

/-! ## The observer -/

/-- What the server expects from the client. -/
inductive ServerPhase where
  /-- commands -/
  | command
  /-- data of a running AUTHENTICATE -/
  | authenticate
  /-- nothing until the user decides about the IDLE -/
  | idlePending
  /-- the DONE of a running IDLE -/
  | idle
  deriving DecidableEq, Repr

/-- The observer's bookkeeping. -/
structure ServerView where
  /-- everything passed to `enqueue_input` -/
  given : Bytes
  /-- the bytes of all reported messages and errors -/
  consumed : Bytes
  /-- the greeting and all responses (of the user and of the server itself) in the order in which they
  were enqueued -/
  messages : List ServerMessage
  /-- the outputs of `next` -/
  outputs : List Bytes
  /-- the number of messages whose sending ended -/
  finished : Nat
  /-- the last step was the end of a response generated by the server itself -/
  quiet : Bool
  /-- what the server expects -/
  phase : ServerPhase
  /-- the beginnings of the current command that announced an accepted literal -/
  literals : List Bytes
  deriving DecidableEq, Repr

/-- A new server with a greeting. -/
def ServerView.start (greeting : Greeting) : ServerView :=
  { given := [], consumed := [], messages := [.greeting greeting], outputs := [], finished := 0,
    quiet := false, phase := .command, literals := [] }

/-- The bytes reported by an error. -/
def ServerError.bytes : ServerError → Bytes
  | .expectedCrlfGotLf b | .malformedMessage b | .literalTooLong b | .commandTooLong b => b

/-- What the server expects after it reported an event. -/
def ServerEvent.phase (p : ServerPhase) : ServerEvent → ServerPhase
  | .commandAuthenticateReceived _ => .authenticate
  | .idleCommandReceived _ => .idlePending
  | .idleDoneReceived => .command
  | _ => p

/-- Bookkeeping of one item. -/
def ServerView.observe (v : ServerView) : SItem → ServerView
  | .enqueue h r => { v with messages := v.messages ++ [.response (some h) r], quiet := false }
  | .authContinue q (.ok h) =>
    { v with messages := v.messages ++ [.response (some h) (.continuationRequest q)], quiet := false }
  | .authFinish st (.ok h) =>
    { v with messages := v.messages ++ [.response (some h) (.status st)], quiet := false
             phase := .command, literals := [] }
  | .idleAccept q (.ok h) =>
    { v with messages := v.messages ++ [.response (some h) (.continuationRequest q)], quiet := false
             phase := .idle, literals := [] }
  | .idleReject st (.ok h) =>
    { v with messages := v.messages ++ [.response (some h) (.status st)], quiet := false
             phase := .command, literals := [] }
  | .authContinue _ (.error _) | .authFinish _ (.error _) | .idleAccept _ (.error _)
  | .idleReject _ (.error _) => { v with quiet := false }
  | .input b => { v with given := v.given ++ b, quiet := false }
  | .output b => { v with outputs := v.outputs ++ [b], quiet := false }
  | .sent _ => { v with finished := v.finished + 1, quiet := false }
  | .quiet => { v with finished := v.finished + 1, quiet := true }
  | .received w e =>
    { v with consumed := v.consumed ++ w, quiet := false, phase := e.phase v.phase, literals := [] }
  | .literal p rs =>
    { v with messages := v.messages ++ rs, quiet := false, literals := v.literals ++ [p] }
  | .failed e rs =>
    { v with consumed := v.consumed ++ e.bytes, messages := v.messages ++ rs, quiet := false
             literals := [] }
  | .starved => { v with quiet := false }

/-- The observer's bookkeeping after a trace. -/
def ServerView.of (g : Greeting) (T : List SItem) : ServerView := T.foldl observe (start g)

/-- The input that was given but not taken yet. -/
def ServerView.unread (v : ServerView) : Bytes := v.given.drop v.consumed.length

/-! ## What is allowed -/

/-- The bytes of a message of the server. -/
def ServerMessage.bytes (L : Lib) : ServerMessage → Bytes
  | .greeting g => (L.encodeGreeting g).flatMap Fragment.data
  | .response _ r => (L.encodeResponse r).flatMap Fragment.data

/-- The event that reports the end of the sending of a message. -/
def ServerMessage.event : ServerMessage → Option ServerEvent
  | .greeting g => some (.greetingSent g)
  | .response (some h) r => some (.responseSent h r)
  | .response none _ => none

/-- The event for a received command. -/
def Command.event (c : Command) : ServerEvent :=
  match c.body with
  | .authenticate mechanism initialResponse =>
    .commandAuthenticateReceived { tag := c.tag, mechanism, initialResponse }
  | .idle => .idleCommandReceived c.tag
  | .other _ => .commandReceived c

/-- The length of an acceptable literal announced by a decoding error. -/
def CommandDecodeError.acceptable (max : Nat) : CommandDecodeError → Option Nat
  | .literalFound _ k _ => if k ≤ max then some k else none
  | _ => none

/-- The framing of commands: literals up to the limit are accepted. -/
def commandFraming (L : Lib) (o : ServerOptions) : Framing CommandDecodeError Command :=
  { relaxed := o.crlfRelaxed, dec := L.decodeCommand, lit := CommandDecodeError.acceptable o.maxLiteralSize }

/-- The framing of authenticate data. -/
def authenticateFraming (L : Lib) (o : ServerOptions) : Framing SimpleDecodeError AuthenticateData :=
  { relaxed := o.crlfRelaxed, dec := L.decodeAuthenticateData, lit := fun _ => none }

/-- The framing of DONE. -/
def idleFraming (L : Lib) (o : ServerOptions) : Framing SimpleDecodeError Unit :=
  { relaxed := o.crlfRelaxed, dec := L.decodeIdleDone, lit := fun _ => none }

/-- `q` ends with a line that announces an acceptable literal of `k` bytes. -/
def Announces {ε μ : Type} (F : Framing ε μ) (q : Bytes) (k : Nat) : Prop :=
  ∃ p l e, q = p ++ l ∧ Announced F p ∧ IsLine l ∧ CrlfOk F.relaxed l ∧ F.dec q = .error e ∧ F.lit e = some k

/-- `ls` are exactly the announcements of literals in `w`, in order and each once. -/
def AllAnnouncements {ε μ : Type} (F : Framing ε μ) (w : Bytes) (ls : List Bytes) : Prop :=
  ls.Pairwise (fun a b => a.length < b.length) ∧ ∀ q, q ∈ ls ↔ (q <+: w ∧ ∃ k, Announces F q k)

/-- The input `w` is taken as a message that produces the event `e`. -/
def Taken (L : Lib) (o : ServerOptions) (p : ServerPhase) (w : Bytes) (e : ServerEvent) : Prop :=
  match p with
  | .command => ∃ c, IsMessage (commandFraming L o) w c ∧ e = c.event
  | .authenticate => ∃ d, IsMessage (authenticateFraming L o) w d ∧ e = .authenticateDataReceived d
  | .idlePending => False
  | .idle => IsMessage (idleFraming L o) w () ∧ e = .idleDoneReceived

/-- The input `w` is exactly one message (or rejected line) of the phase. -/
def ServerPhase.IsUnit (L : Lib) (o : ServerOptions) (p : ServerPhase) (w : Bytes) : Prop :=
  match p with
  | .command => ImapFlow.IsUnit (commandFraming L o) w
  | .authenticate => ImapFlow.IsUnit (authenticateFraming L o) w
  | .idlePending => False
  | .idle => ImapFlow.IsUnit (idleFraming L o) w

/-- The input does not determine a message of the phase yet. -/
def ServerPhase.Unfinished (L : Lib) (o : ServerOptions) (p : ServerPhase) (X : Bytes) : Prop :=
  match p with
  | .command => IsUnfinished (commandFraming L o) X
  | .authenticate => IsUnfinished (authenticateFraming L o) X
  | .idlePending => True
  | .idle => IsUnfinished (idleFraming L o) X

/-- The response to a synchronizing literal that is accepted. -/
def acceptReply (L : Lib) (o : ServerOptions) : LiteralMode → List ServerMessage
  | .nonSync => []
  | .sync =>
    match o.literalAcceptText with
    | .ok text =>
      match L.ccrBasicFromText none text with
      | some cont => [.response none (.continuationRequest cont)]
      | none => []
    | .error _ => []

/-- The response to a synchronizing literal that is too long. -/
def rejectReply (o : ServerOptions) (tag : Tag) : LiteralMode → List ServerMessage
  | .nonSync => []
  | .sync =>
    match o.literalRejectText with
    | .ok text => [.response none (.status (.tagged tag { kind := .bad, code := none, text := text }))]
    | .error _ => []

/-- The input `e.bytes` is discarded with the error `e`, after messages of the given framing. -/
def DiscardedAs {ε μ : Type} (F : Framing ε μ) (max : Nat) : ServerError → Prop
  | .expectedCrlfGotLf w => IsBadLine F w ∧ w.length ≤ max
  | .malformedMessage w => (∃ x, IsUndecodable F w x) ∧ w.length ≤ max
  | .commandTooLong w => IsUnfinished F w ∧ w.length = max
  | .literalTooLong _ => False

/-- The input `e.bytes` is discarded with the error `e` and the server generates the responses `rs`. -/
def Discarded (L : Lib) (o : ServerOptions) (p : ServerPhase) (e : ServerError) (rs : List ServerMessage) :
    Prop :=
  match p with
  | .command =>
    match e with
    | .literalTooLong w => w.length ≤ o.maxCommandSize ∧ ∃ tag k mode,
        IsUndecodable (commandFraming L o) w (.literalFound tag k mode) ∧ o.maxLiteralSize < k ∧
        rs = rejectReply o tag mode
    | .malformedMessage w => rs = [] ∧ w.length ≤ o.maxCommandSize ∧
        ∃ x, IsUndecodable (commandFraming L o) w x ∧ ∀ tag k mode, x ≠ .literalFound tag k mode
    | e => rs = [] ∧ DiscardedAs (commandFraming L o) o.maxCommandSize e
  | .authenticate => rs = [] ∧ DiscardedAs (authenticateFraming L o) o.maxCommandSize e
  | .idlePending => False
  | .idle => rs = [] ∧ DiscardedAs (idleFraming L o) o.maxCommandSize e

/-- The input does not yet determine what the next message is. -/
def Starving (L : Lib) (o : ServerOptions) (p : ServerPhase) (input : Bytes) : Prop :=
  match p with
  | .command => IsUnfinished (commandFraming L o) input ∧ input.length < o.maxCommandSize
  | .authenticate => IsUnfinished (authenticateFraming L o) input ∧ input.length < o.maxCommandSize
  | .idlePending => True
  | .idle => IsUnfinished (idleFraming L o) input ∧ input.length < o.maxCommandSize

/-! ## Projections of a trace -/

/-- Bytes passed to `enqueue_input`. -/
def SItem.given : SItem → Bytes
  | .input b => b
  | _ => []

/-- Bytes of a reported message or error. -/
def SItem.taken : SItem → Bytes
  | .received w _ => w
  | .failed e _ => e.bytes
  | _ => []

/-- Bytes handed out for sending. -/
def SItem.outputs : SItem → Bytes
  | .output b => b
  | _ => []

/-- The messages enqueued for sending, by the user or by the server itself. -/
def SItem.enqueues : SItem → List ServerMessage
  | .enqueue h r => [.response (some h) r]
  | .authContinue q (.ok h) | .idleAccept q (.ok h) => [.response (some h) (.continuationRequest q)]
  | .authFinish st (.ok h) | .idleReject st (.ok h) => [.response (some h) (.status st)]
  | .literal _ rs | .failed _ rs => rs
  | _ => []

/-- The event reported by `next`. -/
def SItem.event? : SItem → Option ServerEvent
  | .sent e => some e
  | .received _ e => some e
  | _ => none

/-- The event of the sending side reported by `next`. -/
def SItem.sent? : SItem → Option ServerEvent
  | .sent e => some e
  | _ => none

/-- All bytes passed to `enqueue_input`. -/
def serverGiven (T : List SItem) : Bytes := T.flatMap SItem.given

/-- All bytes taken from the input. -/
def serverTaken (T : List SItem) : Bytes := T.flatMap SItem.taken

/-- All bytes handed out for sending. -/
def serverOutput (T : List SItem) : Bytes := T.flatMap SItem.outputs

/-- The greeting and all messages enqueued for sending. -/
def serverMessages (g : Greeting) (T : List SItem) : List ServerMessage :=
  .greeting g :: T.flatMap SItem.enqueues

/-- All events of the sending side. -/
def serverSent (T : List SItem) : List ServerEvent := T.filterMap SItem.sent?

/-- The chunks handed out for sending, one per call of `next`. -/
def serverOutputs (T : List SItem) : List Bytes :=
  T.filterMap fun
    | .output b => some b
    | _ => none

/-- The item reports a message or an error, i.e. bytes of the input are taken. -/
def SItem.reads : SItem → Bool
  | .received .. | .failed .. => true
  | _ => false

/-- The literals accepted since the last message or error. -/
def serverLiterals : List SItem → List Bytes :=
  List.foldl (fun ls i => match i with
    | .literal p _ => ls ++ [p]
    | .received .. | .failed .. => []
    | _ => ls) []

/-- The input that was given but not taken yet. -/
def serverUnread (T : List SItem) : Bytes := (serverGiven T).drop (serverTaken T).length

/-- The phase after a trace. -/
def serverPhase : List SItem → ServerPhase :=
  List.foldl (fun p i => match i with
    | .authFinish _ (.ok _) => .command
    | .idleAccept _ (.ok _) => .idle
    | .idleReject _ (.ok _) => .command
    | .received _ e => e.phase p
    | _ => p) .command

end ImapFlow
