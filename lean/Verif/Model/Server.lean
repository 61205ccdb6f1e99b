import Verif.Model.Client
import Verif.Model.ServerSend

/-!
# Server (`/repo/src/server.rs`, `/repo/src/server_receive.rs`)
-/

namespace ImapFlow

/-- `server::Options`, `/repo/src/server.rs:33-51`. -/
structure ServerOptions where
  crlfRelaxed : Bool
  maxLiteralSize : Nat
  maxCommandSize : Nat
  literalAcceptCcr : ContinuationRequest
  literalRejectCcr : ContinuationRequest
  deriving DecidableEq, Repr

namespace ServerOptions

/-- The text `"..."`, `/repo/src/server.rs:64,67`. -/
def defaultText : Text := [46, 46, 46]

/-- `impl Default for server::Options`, `/repo/src/server.rs:53-71`. -/
def default (L : Lib) : Except Panic ServerOptions :=
  match L.ccrBasicFromText none defaultText with
  | none => .error .unwrapFailed
  | some accept =>
    match L.ccrBasicFromText none defaultText with
    | none => .error .unwrapFailed
    | some reject =>
      .ok { crlfRelaxed := false
            maxLiteralSize := 25 * 1024 * 1024
            maxCommandSize := 25 * 1024 * 1024 + 64 * 1024
            literalAcceptCcr := accept
            literalRejectCcr := reject }

/-- `Options::literal_accept_text`, `/repo/src/server.rs:74-79`. -/
def literalAcceptText (o : ServerOptions) : Except Panic Text :=
  match o.literalAcceptCcr with
  | .basic _ text => .ok text
  | .base64 _ => .error .unreachableCode

/-- `Options::set_literal_accept_text`, `/repo/src/server.rs:81-91`. -/
def setLiteralAcceptText (L : Lib) (o : ServerOptions) (text : Bytes) :
    Except Panic (ServerOptions × Except Bytes Unit) :=
  if (L.ccrBasicFromStr none text).isSome then
    match L.ccrBasicFromStr none text with
    | none => .error .unwrapFailed
    | some ccr => .ok ({ o with literalAcceptCcr := ccr }, .ok ())
  else .ok (o, .error text)

/-- `Options::literal_reject_text`, `/repo/src/server.rs:93-98`. -/
def literalRejectText (o : ServerOptions) : Except Panic Text :=
  match o.literalRejectCcr with
  | .basic _ text => .ok text
  | .base64 _ => .error .unreachableCode

/-- `Options::set_literal_reject_text`, `/repo/src/server.rs:100-110`. -/
def setLiteralRejectText (L : Lib) (o : ServerOptions) (text : Bytes) :
    Except Panic (ServerOptions × Except Bytes Unit) :=
  if (L.ccrBasicFromStr none text).isSome then
    match L.ccrBasicFromStr none text with
    | none => .error .unwrapFailed
    | some ccr => .ok ({ o with literalRejectCcr := ccr }, .ok ())
  else .ok (o, .error text)

end ServerOptions

/-- `ServerReceiveState`, `/repo/src/server_receive.rs:5-12`. -/
inductive ServerReceiveState where
  | command (state : ReceiveState)
  | authenticateData (state : ReceiveState)
  | idleAccept (state : ReceiveState)
  | idleDone (state : ReceiveState)
  | dummy
  deriving DecidableEq, Repr

/-- `NextExpectedMessage`, `/repo/src/server_receive.rs:65-70`. -/
inductive NextExpectedMessage where
  | command | authenticateData | idleAccept | idleDone
  deriving DecidableEq, Repr

/-- `ServerReceiveState::change_state`, `/repo/src/server_receive.rs:15-61`. -/
def ServerReceiveState.changeState (old : ServerReceiveState) (expected : NextExpectedMessage) :
    Except Panic ServerReceiveState :=
  match expected with
  | .command =>
    match old with
    | .command state => .ok (.command state)
    | .authenticateData state => .ok (.command state.changeCodec)
    | .idleAccept state => .ok (.command state.changeCodec)
    | .idleDone state => .ok (.command state.changeCodec)
    | .dummy => .error .unreachableCode
  | .authenticateData =>
    match old with
    | .command state => .ok (.authenticateData state.changeCodec)
    | .authenticateData state => .ok (.authenticateData state)
    | .idleAccept state => .ok (.authenticateData state.changeCodec)
    | .idleDone state => .ok (.authenticateData state.changeCodec)
    | .dummy => .error .unreachableCode
  | .idleAccept =>
    match old with
    | .command state => .ok (.idleAccept state.changeCodec)
    | .authenticateData state => .ok (.idleAccept state.changeCodec)
    | .idleAccept state => .ok (.idleAccept state)
    | .idleDone state => .ok (.idleAccept state.changeCodec)
    | .dummy => .error .unreachableCode
  | .idleDone =>
    match old with
    | .command state => .ok (.idleDone state.changeCodec)
    | .authenticateData state => .ok (.idleDone state.changeCodec)
    | .idleAccept state => .ok (.idleDone state.changeCodec)
    | .idleDone state => .ok (.idleDone state)
    | .dummy => .error .unreachableCode

/-- `server::Event`, `/repo/src/server.rs:528-570`. -/
inductive ServerEvent where
  | greetingSent (greeting : Greeting)
  | responseSent (handle : RawHandle) (response : Response)
  | commandReceived (command : Command)
  | commandAuthenticateReceived (commandAuthenticate : CommandAuthenticate)
  | authenticateDataReceived (authenticateData : AuthenticateData)
  | idleCommandReceived (tag : Tag)
  | idleDoneReceived
  deriving DecidableEq, Repr

/-- `server::Error`, `/repo/src/server.rs:573-582`. -/
inductive ServerError where
  | expectedCrlfGotLf (discardedBytes : Bytes)
  | malformedMessage (discardedBytes : Bytes)
  | literalTooLong (discardedBytes : Bytes)
  | commandTooLong (discardedBytes : Bytes)
  deriving DecidableEq, Repr

/-- `Server`, `/repo/src/server.rs:113-118`. -/
structure Server where
  options : ServerOptions
  handleGenerator : HandleGenerator
  sendState : ServerSendState
  receiveState : ServerReceiveState
  deriving DecidableEq, Repr

/-- The receiving part shared by the `AuthenticateData` and `IdleDone` arms of
`Server::progress_receive`, `/repo/src/server.rs:335-361,368-398`: a line without literals. -/
def receiveServerLine {μ : Type} (dec : Decoder SimpleDecodeError μ) (s : ReceiveState) :
    Res ReceiveState ServerError μ :=
  match s.next dec with
  | .error p => .error p
  | .ok (s, .ok message) => finishWith s message
  | .ok (s, .error (.io io)) => .ok (s, .error (.io io))
  | .ok (s, .error (.error (.decodingFailure _))) => discardWith s .malformedMessage
  | .ok (s, .error (.error .expectedCrlfGotLf)) => discardWith s .expectedCrlfGotLf
  | .ok (s, .error (.error .messageTooLong)) => discardWith s .commandTooLong

namespace Server

/-- `Server::new`, `/repo/src/server.rs:121-139`. -/
def new (handleGenerator : HandleGenerator) (options : ServerOptions) (greeting : Greeting) : Server :=
  { options
    handleGenerator
    sendState := ServerSendState.new.enqueueGreeting greeting
    receiveState := .command (.new options.crlfRelaxed (some options.maxCommandSize)) }

/-- The common body of `Server::enqueue_data`, `enqueue_status`, `enqueue_continuation_request`,
`/repo/src/server.rs:146-151,158-163,170-180`. -/
def enqueueResponse (s : Server) (response : Response) : Server × RawHandle :=
  let (handleGenerator, handle) := s.handleGenerator.generate
  ({ s with handleGenerator, sendState := s.sendState.enqueueResponse (some handle) response }, handle)

/-- `Server::enqueue_data`, `/repo/src/server.rs:146-151`. -/
def enqueueData (s : Server) (data : Data) : Server × RawHandle := s.enqueueResponse (.data data)

/-- `Server::enqueue_status`, `/repo/src/server.rs:158-163`. -/
def enqueueStatus (s : Server) (status : Status) : Server × RawHandle :=
  s.enqueueResponse (.status status)

/-- `Server::enqueue_continuation_request`, `/repo/src/server.rs:170-180`. -/
def enqueueContinuationRequest (s : Server) (request : ContinuationRequest) : Server × RawHandle :=
  s.enqueueResponse (.continuationRequest request)

/-- `Server::progress_send`, `/repo/src/server.rs:182-206`. -/
def progressSend (L : Lib) (s : Server) :
    Server × Except (Interrupt ServerError) (Option ServerEvent) :=
  match s.sendState.next L with
  | (sendState, .ok (some (.greeting greeting))) =>
    ({ s with sendState }, .ok (some (.greetingSent greeting)))
  | (sendState, .ok (some (.response (some handle) response))) =>
    ({ s with sendState }, .ok (some (.responseSent handle response)))
  | (sendState, .ok (some (.response none _))) => ({ s with sendState }, .ok none)
  | (sendState, .ok none) => ({ s with sendState }, .ok none)
  | (sendState, .error (.io io)) => ({ s with sendState }, .error (.io io))

/-- The `LiteralFound` arm of `Server::progress_receive`, `/repo/src/server.rs:246-312`.  `state` is
the receive state after `state.next()`.  `Status::bad(Some(tag), None, text).unwrap()` with a
validated text cannot fail in `imap-types`. -/
def literalFound (L : Lib) (s : Server) (state : ReceiveState) (tag : Tag) (length : Nat)
    (mode : LiteralMode) : Res Server ServerError (Option ServerEvent) :=
  if length > s.options.maxLiteralSize then
    match mode with
    | .sync =>
      match s.options.literalRejectText with
      | .error p => .error p
      | .ok text =>
        let status := Status.tagged tag { kind := .bad, code := none, text := text }
        let sendState := s.sendState.enqueueResponse none (.status status)
        match state.discardMessage with
        | .error p => .error p
        | .ok (state, discardedBytes) =>
          .ok ({ s with sendState, receiveState := .command state },
               .error (.error (.literalTooLong discardedBytes)))
    | .nonSync =>
      match state.discardMessage with
      | .error p => .error p
      | .ok (state, discardedBytes) =>
        .ok ({ s with receiveState := .command state },
             .error (.error (.literalTooLong discardedBytes)))
  else
    let state := state.startLiteral length
    match mode with
    | .sync =>
      match s.options.literalAcceptText with
      | .error p => .error p
      | .ok text =>
        match L.ccrBasicFromText none text with
        | none => .error .unwrapFailed
        | some cont =>
          let sendState := s.sendState.enqueueResponse none (.continuationRequest cont)
          .ok ({ s with sendState, receiveState := .command state }, .ok none)
    | .nonSync => .ok ({ s with receiveState := .command state }, .ok none)

/-- The error arms `discard_message` + `Err(..)` of the `Command` state. -/
def discardCommand (s : Server) (state : ReceiveState) (mk : Bytes → ServerError) :
    Res Server ServerError (Option ServerEvent) :=
  match state.discardMessage with
  | .error p => .error p
  | .ok (state, discardedBytes) =>
    .ok ({ s with receiveState := .command state }, .error (.error (mk discardedBytes)))

/-- The `DecodingSuccess` arm of the `Command` state, `/repo/src/server.rs:212-244`; `state` is the
receive state before `finish_message`. -/
def commandDecoded (s : Server) (state : ReceiveState) (command : Command) :
    Res Server ServerError (Option ServerEvent) :=
  match state.finishMessage with
  | .error p => .error p
  | .ok state =>
    match command.body with
    | .authenticate mechanism initialResponse =>
      match ServerReceiveState.changeState (.command state) .authenticateData with
      | .error p => .error p
      | .ok receiveState =>
        .ok ({ s with receiveState },
             .ok (some (.commandAuthenticateReceived { tag := command.tag, mechanism, initialResponse })))
    | .idle =>
      match ServerReceiveState.changeState (.command state) .idleAccept with
      | .error p => .error p
      | .ok receiveState =>
        .ok ({ s with receiveState }, .ok (some (.idleCommandReceived command.tag)))
    | body =>
      .ok ({ s with receiveState := .command state },
           .ok (some (.commandReceived { tag := command.tag, body })))

/-- `Server::progress_receive`, `/repo/src/server.rs:208-403`. -/
def progressReceive (L : Lib) (s : Server) : Res Server ServerError (Option ServerEvent) :=
  match s.receiveState with
  | .command state =>
    match state.next L.decodeCommand with
    | .error p => .error p
    | .ok (state, .ok command) => commandDecoded s state command
    | .ok (state, .error (.io io)) => .ok ({ s with receiveState := .command state }, .error (.io io))
    | .ok (state, .error (.error (.decodingFailure (.literalFound tag length mode)))) =>
      literalFound L s state tag length mode
    | .ok (state, .error (.error (.decodingFailure .failed))) => discardCommand s state .malformedMessage
    | .ok (state, .error (.error (.decodingFailure .incomplete))) =>
      discardCommand s state .malformedMessage
    | .ok (state, .error (.error .expectedCrlfGotLf)) => discardCommand s state .expectedCrlfGotLf
    | .ok (state, .error (.error .messageTooLong)) => discardCommand s state .commandTooLong
  | .authenticateData state =>
    match receiveServerLine L.decodeAuthenticateData state with
    | .error p => .error p
    | .ok (state, .error i) => .ok ({ s with receiveState := .authenticateData state }, .error i)
    | .ok (state, .ok authenticateData) =>
      .ok ({ s with receiveState := .authenticateData state },
           .ok (some (.authenticateDataReceived authenticateData)))
  | .idleAccept _ => .ok (s, .error (.io .needMoreInput))
  | .idleDone state =>
    match receiveServerLine L.decodeIdleDone state with
    | .error p => .error p
    | .ok (state, .error i) => .ok ({ s with receiveState := .idleDone state }, .error i)
    | .ok (state, .ok ()) =>
      match ServerReceiveState.changeState (.idleDone state) .command with
      | .error p => .error p
      | .ok receiveState => .ok ({ s with receiveState }, .ok (some .idleDoneReceived))
  | .dummy => .error .unreachableCode

/-- `Server::authenticate_continue`, `/repo/src/server.rs:405-415`. -/
def authenticateContinue (s : Server) (request : ContinuationRequest) :
    Server × Except ContinuationRequest RawHandle :=
  match s.receiveState with
  | .authenticateData _ =>
    let (s, handle) := s.enqueueContinuationRequest request
    (s, .ok handle)
  | _ => (s, .error request)

/-- `Server::authenticate_finish`, `/repo/src/server.rs:417-431`. -/
def authenticateFinish (s : Server) (status : Status) : Except Panic (Server × Except Status RawHandle) :=
  match s.receiveState with
  | .authenticateData _ =>
    let (s, handle) := s.enqueueStatus status
    match s.receiveState.changeState .command with
    | .error p => .error p
    | .ok receiveState => .ok ({ s with receiveState }, .ok handle)
  | _ => .ok (s, .error status)

/-- `Server::idle_accept`, `/repo/src/server.rs:433-447`. -/
def idleAccept (s : Server) (request : ContinuationRequest) :
    Except Panic (Server × Except ContinuationRequest RawHandle) :=
  match s.receiveState with
  | .idleAccept _ =>
    let (s, handle) := s.enqueueContinuationRequest request
    match s.receiveState.changeState .idleDone with
    | .error p => .error p
    | .ok receiveState => .ok ({ s with receiveState }, .ok handle)
  | _ => .ok (s, .error request)

/-- `Server::idle_reject`, `/repo/src/server.rs:449-463`. -/
def idleReject (s : Server) (status : Status) : Except Panic (Server × Except Status RawHandle) :=
  match s.receiveState with
  | .idleAccept _ =>
    let (s, handle) := s.enqueueStatus status
    match s.receiveState.changeState .command with
    | .error p => .error p
    | .ok receiveState => .ok ({ s with receiveState }, .ok handle)
  | _ => .ok (s, .error status)

/-- `Server::enqueue_input`, `/repo/src/server.rs:479-487`. -/
def enqueueInput (s : Server) (bytes : Bytes) : Except Panic Server :=
  match s.receiveState with
  | .command state => .ok { s with receiveState := .command (state.enqueueInput bytes) }
  | .authenticateData state =>
    .ok { s with receiveState := .authenticateData (state.enqueueInput bytes) }
  | .idleAccept state => .ok { s with receiveState := .idleAccept (state.enqueueInput bytes) }
  | .idleDone state => .ok { s with receiveState := .idleDone (state.enqueueInput bytes) }
  | .dummy => .error .unreachableCode

/-- Bytes not yet covered by a finished message; termination measure of `Server::next`. -/
def unread (s : Server) : Nat :=
  match s.receiveState with
  | .command state | .authenticateData state | .idleAccept state | .idleDone state => state.unread
  | .dummy => 0

end Server

theorem Server.progressSend_receiveState {L : Lib} {s s1 : Server}
    {r : Except (Interrupt ServerError) (Option ServerEvent)}
    (h : progressSend L s = (s1, r)) : s1.receiveState = s.receiveState := by
  unfold progressSend at h
  split at h <;> (simp only [Prod.mk.injEq] at h; rw [← h.1])

theorem Server.progressReceive_unread {L : Lib} {s s1 : Server}
    (h : progressReceive L s = .ok (s1, .ok none)) : s1.unread < s.unread := by
  unfold progressReceive at h
  split at h
  · rename_i state hst
    split at h
    · cases h
    · unfold commandDecoded at h
      split at h
      · cases h
      · split at h
        · split at h <;> simp at h
        · split at h <;> simp at h
        · simp at h
    · simp at h
    · rename_i st1 tag len mode heq
      have h1 := ReceiveState.next_unread heq (by simp) (by simp)
      have h2 : (st1.startLiteral len).unread = st1.unread := rfl
      have hu : s.unread = state.unread := by simp [unread, hst]
      unfold literalFound at h
      split at h
      · split at h
        · split at h
          · cases h
          · simp only at h
            split at h <;> simp at h
        · split at h <;> simp at h
      · simp only at h
        split at h
        · split at h
          · cases h
          · split at h
            · cases h
            · simp only [Except.ok.injEq, Prod.mk.injEq, and_true] at h
              rw [← h, hu]
              show (st1.startLiteral len).unread < _
              omega
        · simp only [Except.ok.injEq, Prod.mk.injEq, and_true] at h
          rw [← h, hu]
          show (st1.startLiteral len).unread < _
          omega
    all_goals
      unfold discardCommand at h
      split at h <;> simp at h
  · split at h <;> simp at h
  · simp at h
  · split at h
    · cases h
    · simp at h
    · split at h <;> simp at h
  · cases h

/-- `Server::next`, `/repo/src/server.rs:489-499`.  The loop continues after `progress_receive`
returned `Ok(None)` (a literal was accepted); that call has consumed at least one byte. -/
def Server.next (L : Lib) (s : Server) : Res Server ServerError ServerEvent :=
  match _hs : progressSend L s with
  | (s1, .error i) => .ok (s1, .error i)
  | (s1, .ok (some event)) => .ok (s1, .ok event)
  | (s1, .ok none) =>
    match _hr : progressReceive L s1 with
    | .error p => .error p
    | .ok (s2, .error i) => .ok (s2, .error i)
    | .ok (s2, .ok (some event)) => .ok (s2, .ok event)
    | .ok (s2, .ok none) => Server.next L s2
termination_by s.unread
decreasing_by
  have h1 := Server.progressSend_receiveState _hs
  have h2 := Server.progressReceive_unread _hr
  have h3 : s1.unread = s.unread := by simp [Server.unread, h1]
  omega

end ImapFlow
