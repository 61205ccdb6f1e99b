import Verif.Model.Types
import Verif.Model.Handle

/-!
# Client: sending commands (`/repo/src/client_send.rs`)
-/

namespace ImapFlow

/-- `QueuedMessage`, `/repo/src/client_send.rs:327-330`. -/
structure ClientQueued where
  handle : RawHandle
  command : Command
  deriving DecidableEq, Repr

/-- `CommandActivity`, `/repo/src/client_send.rs:524-541`. -/
inductive CommandActivity where
  | pushingFragments (acceptedLiteral : Option Bytes)
  | waitingForFragmentsSent (limboLiteral : Option Bytes)
  | waitingForLiteralAccepted (limboLiteral : Bytes)
  deriving DecidableEq, Repr

/-- `CommandState`, `/repo/src/client_send.rs:444-450`. -/
structure CommandState where
  handle : RawHandle
  command : Command
  fragments : List Fragment
  activity : CommandActivity
  deriving DecidableEq, Repr

/-- `AuthenticateActivity`, `/repo/src/client_send.rs:594-610`. -/
inductive AuthenticateActivity where
  | pushingAuthenticate (authenticate : Bytes)
  | waitingForAuthenticateSent
  | waitingForAuthenticateResponse
  | waitingForAuthenticateDataSet
  | pushingAuthenticateData (authenticateData : Bytes)
  | waitingForAuthenticateDataSent
  deriving DecidableEq, Repr

/-- `AuthenticateState`, `/repo/src/client_send.rs:543-547`. -/
structure AuthenticateState where
  handle : RawHandle
  commandAuthenticate : CommandAuthenticate
  activity : AuthenticateActivity
  deriving DecidableEq, Repr

/-- `IdleActivity`, `/repo/src/client_send.rs:659-675`. -/
inductive IdleActivity where
  | pushingIdle (idle : Bytes)
  | waitingForIdleSent
  | waitingForIdleResponse
  | waitingForIdleDoneSet
  | pushingIdleDone (idleDone : Bytes)
  | waitingForIdleDoneSent
  deriving DecidableEq, Repr

/-- `IdleState`, `/repo/src/client_send.rs:612-616`. -/
structure IdleState where
  handle : RawHandle
  tag : Tag
  activity : IdleActivity
  deriving DecidableEq, Repr

/-- `CurrentMessage`, `/repo/src/client_send.rs:387-394`. -/
inductive ClientCurrent where
  | command (state : CommandState)
  | authenticate (state : AuthenticateState)
  | idle (state : IdleState)
  deriving DecidableEq, Repr

/-- `ClientSendEvent`, `/repo/src/client_send.rs:678-692`. -/
inductive ClientSendEvent where
  | command (handle : RawHandle) (command : Command)
  | authenticate (handle : RawHandle)
  | idle (handle : RawHandle)
  | idleDone (handle : RawHandle)
  deriving DecidableEq, Repr

/-- `ClientSendTermination`, `/repo/src/client_send.rs:695-713`. -/
inductive ClientSendTermination where
  | literalRejected (handle : RawHandle) (command : Command)
  | authenticateAccepted (handle : RawHandle) (commandAuthenticate : CommandAuthenticate)
  | authenticateRejected (handle : RawHandle) (commandAuthenticate : CommandAuthenticate)
  | idleRejected (handle : RawHandle)
  deriving DecidableEq, Repr

/-- `FinishSendingResult`, `/repo/src/client_send.rs:417-430`. -/
inductive FinishSendingResult (σ : Type) where
  | uncompleted (state : σ) (event : Option ClientSendEvent)
  | completed (event : ClientSendEvent)
  deriving DecidableEq, Repr

/-- `FinishSendingResult::map_state`, `/repo/src/client_send.rs:433-441`. -/
def FinishSendingResult.mapState {σ τ : Type} (r : FinishSendingResult σ) (f : σ → τ) :
    FinishSendingResult τ :=
  match r with
  | .uncompleted state event => .uncompleted (f state) event
  | .completed event => .completed event

/-- `ClientSendState`, `/repo/src/client_send.rs:18-26` (the codecs are in `Lib`). -/
structure ClientSendState where
  queuedMessages : List ClientQueued
  currentMessage : Option ClientCurrent
  deriving DecidableEq, Repr

/-- `let Some(Fragment::Line { data }) = fragments.next() else { unreachable!() };
assert!(fragments.next().is_none());`, `/repo/src/client_send.rs:200-206,255-261,346-349,363-366`. -/
def singleLine (fragments : List Fragment) : Except Panic Bytes :=
  match fragments with
  | .line data :: rest => if rest.isEmpty then .ok data else .error .assertFailed
  | _ => .error .unreachableCode

/-- `QueuedMessage::start`, `/repo/src/client_send.rs:334-383`. -/
def ClientQueued.start (L : Lib) (q : ClientQueued) : Except Panic ClientCurrent :=
  let fragments := L.encodeCommand q.command
  let tag := q.command.tag
  match q.command.body with
  | .authenticate mechanism initialResponse =>
    match singleLine fragments with
    | .error p => .error p
    | .ok authenticate =>
      .ok (.authenticate {
        handle := q.handle
        commandAuthenticate := { tag, mechanism, initialResponse }
        activity := .pushingAuthenticate authenticate })
  | .idle =>
    match singleLine fragments with
    | .error p => .error p
    | .ok idle => .ok (.idle { handle := q.handle, tag, activity := .pushingIdle idle })
  | body =>
    .ok (.command {
      handle := q.handle
      command := { tag, body }
      fragments
      activity := .pushingFragments none })

/-- The inner `loop` of `CommandState::push_to_buffer`, `/repo/src/client_send.rs:463-484`:
returns the bytes pushed, the limbo literal and the remaining fragments. -/
def pushFragments : List Fragment → Bytes × Option Bytes × List Fragment
  | [] => ([], none, [])
  | .line data :: rest =>
    let (buf, limbo, rest) := pushFragments rest
    (data ++ buf, limbo, rest)
  | .literal data .nonSync :: rest =>
    let (buf, limbo, rest) := pushFragments rest
    (data ++ buf, limbo, rest)
  | .literal data .sync :: rest => ([], some data, rest)

/-- `CommandState::push_to_buffer`, `/repo/src/client_send.rs:453-497`; returns the bytes appended
to the write buffer. -/
def CommandState.pushToBuffer (s : CommandState) : CommandState × Bytes :=
  match s.activity with
  | .pushingFragments acceptedLiteral =>
    let (buf, limboLiteral, fragments) := pushFragments s.fragments
    ({ s with fragments, activity := .waitingForFragmentsSent limboLiteral },
     acceptedLiteral.getD [] ++ buf)
  | _ => (s, [])

/-- `CommandState::finish_sending`, `/repo/src/client_send.rs:499-521`. -/
def CommandState.finishSending (s : CommandState) : FinishSendingResult CommandState :=
  match s.activity with
  | .waitingForFragmentsSent (some limboLiteral) =>
    .uncompleted { s with activity := .waitingForLiteralAccepted limboLiteral } none
  | .waitingForFragmentsSent none => .completed (.command s.handle s.command)
  | _ => .uncompleted s none

/-- `AuthenticateState::push_to_buffer`, `/repo/src/client_send.rs:550-564`. -/
def AuthenticateState.pushToBuffer (s : AuthenticateState) : AuthenticateState × Bytes :=
  match s.activity with
  | .pushingAuthenticate authenticate =>
    ({ s with activity := .waitingForAuthenticateSent }, authenticate)
  | .pushingAuthenticateData authenticateData =>
    ({ s with activity := .waitingForAuthenticateDataSent }, authenticateData)
  | _ => (s, [])

/-- `AuthenticateState::finish_sending`, `/repo/src/client_send.rs:566-591`. -/
def AuthenticateState.finishSending (s : AuthenticateState) : FinishSendingResult AuthenticateState :=
  match s.activity with
  | .waitingForAuthenticateSent =>
    .uncompleted { s with activity := .waitingForAuthenticateResponse } (some (.authenticate s.handle))
  | .waitingForAuthenticateDataSent =>
    .uncompleted { s with activity := .waitingForAuthenticateResponse } none
  | _ => .uncompleted s none

/-- `IdleState::push_to_buffer`, `/repo/src/client_send.rs:619-633`. -/
def IdleState.pushToBuffer (s : IdleState) : IdleState × Bytes :=
  match s.activity with
  | .pushingIdle idle => ({ s with activity := .waitingForIdleSent }, idle)
  | .pushingIdleDone idleDone => ({ s with activity := .waitingForIdleDoneSent }, idleDone)
  | _ => (s, [])

/-- `IdleState::finish_sending`, `/repo/src/client_send.rs:635-656`. -/
def IdleState.finishSending (s : IdleState) : FinishSendingResult IdleState :=
  match s.activity with
  | .waitingForIdleSent =>
    .uncompleted { s with activity := .waitingForIdleResponse } (some (.idle s.handle))
  | .waitingForIdleDoneSent => .completed (.idleDone s.handle)
  | _ => .uncompleted s none

/-- `CurrentMessage::push_to_buffer`, `/repo/src/client_send.rs:398-404`. -/
def ClientCurrent.pushToBuffer : ClientCurrent → ClientCurrent × Bytes
  | .command s => let (s, buf) := s.pushToBuffer; (.command s, buf)
  | .authenticate s => let (s, buf) := s.pushToBuffer; (.authenticate s, buf)
  | .idle s => let (s, buf) := s.pushToBuffer; (.idle s, buf)

/-- `CurrentMessage::finish_sending`, `/repo/src/client_send.rs:407-413`. -/
def ClientCurrent.finishSending : ClientCurrent → FinishSendingResult ClientCurrent
  | .command s => s.finishSending.mapState .command
  | .authenticate s => s.finishSending.mapState .authenticate
  | .idle s => s.finishSending.mapState .idle

namespace ClientSendState

/-- `ClientSendState::new`, `/repo/src/client_send.rs:29-41`. -/
def new : ClientSendState := { queuedMessages := [], currentMessage := none }

/-- `ClientSendState::enqueue_command`, `/repo/src/client_send.rs:43-46`. -/
def enqueueCommand (s : ClientSendState) (handle : RawHandle) (command : Command) : ClientSendState :=
  { s with queuedMessages := s.queuedMessages ++ [{ handle, command }] }

/-- `ClientSendState::maybe_terminate`, `/repo/src/client_send.rs:49-129`.  The `warn!`s have no
effect on the result and are not modelled. -/
def maybeTerminate (s : ClientSendState) (status : Status) :
    ClientSendState × Option ClientSendTermination :=
  match s.currentMessage with
  | none => (s, none)
  | some (.command state) =>
    match status with
    | .tagged tag body =>
      if body.kind = .bad ∧ tag = state.command.tag then
        ({ s with currentMessage := none }, some (.literalRejected state.handle state.command))
      else (s, none)
    | _ => (s, none)
  | some (.authenticate state) =>
    match status with
    | .tagged tag body =>
      if tag = state.commandAuthenticate.tag then
        match body.kind with
        | .ok => ({ s with currentMessage := none },
                  some (.authenticateAccepted state.handle state.commandAuthenticate))
        | .no | .bad => ({ s with currentMessage := none },
                  some (.authenticateRejected state.handle state.commandAuthenticate))
      else (s, none)
    | _ => (s, none)
  | some (.idle state) =>
    match status with
    | .tagged tag _ =>
      if tag = state.tag then
        ({ s with currentMessage := none }, some (.idleRejected state.handle))
      else (s, none)
    | _ => (s, none)

/-- `ClientSendState::literal_continue`, `/repo/src/client_send.rs:132-155`. -/
def literalContinue (s : ClientSendState) : ClientSendState × Bool :=
  match s.currentMessage with
  | some (.command state) =>
    match state.activity with
    | .waitingForLiteralAccepted limboLiteral =>
      let state := { state with activity := .pushingFragments (some limboLiteral) }
      ({ s with currentMessage := some (.command state) }, true)
    | _ => (s, false)
  | _ => (s, false)

/-- `ClientSendState::authenticate_continue`, `/repo/src/client_send.rs:158-177`. -/
def authenticateContinue (s : ClientSendState) : ClientSendState × Option RawHandle :=
  match s.currentMessage with
  | some (.authenticate state) =>
    match state.activity with
    | .waitingForAuthenticateResponse =>
      let state := { state with activity := .waitingForAuthenticateDataSet }
      ({ s with currentMessage := some (.authenticate state) }, some state.handle)
    | _ => (s, none)
  | _ => (s, none)

/-- `ClientSendState::set_authenticate_data`, `/repo/src/client_send.rs:180-215`. -/
def setAuthenticateData (L : Lib) (s : ClientSendState) (authenticateData : AuthenticateData) :
    Except Panic (ClientSendState × Except AuthenticateData RawHandle) :=
  match s.currentMessage with
  | some (.authenticate state) =>
    match state.activity with
    | .waitingForAuthenticateDataSet =>
      match singleLine (L.encodeAuthenticateData authenticateData) with
      | .error p => .error p
      | .ok data =>
        let state := { state with activity := .pushingAuthenticateData data }
        .ok ({ s with currentMessage := some (.authenticate state) }, .ok state.handle)
    | _ => .ok (s, .error authenticateData)
  | _ => .ok (s, .error authenticateData)

/-- `ClientSendState::idle_continue`, `/repo/src/client_send.rs:218-237`. -/
def idleContinue (s : ClientSendState) : ClientSendState × Option RawHandle :=
  match s.currentMessage with
  | some (.idle state) =>
    match state.activity with
    | .waitingForIdleResponse =>
      let state := { state with activity := .waitingForIdleDoneSet }
      ({ s with currentMessage := some (.idle state) }, some state.handle)
    | _ => (s, none)
  | _ => (s, none)

/-- `ClientSendState::set_idle_done`, `/repo/src/client_send.rs:240-271`. -/
def setIdleDone (L : Lib) (s : ClientSendState) :
    Except Panic (ClientSendState × Option RawHandle) :=
  match s.currentMessage with
  | some (.idle state) =>
    match state.activity with
    | .waitingForIdleDoneSet =>
      match singleLine L.encodeIdleDone with
      | .error p => .error p
      | .ok data =>
        let state := { state with activity := .pushingIdleDone data }
        .ok ({ s with currentMessage := some (.idle state) }, some state.handle)
    | _ => .ok (s, none)
  | _ => .ok (s, none)

/-- The part of `ClientSendState::next` after the current message was determined,
`/repo/src/client_send.rs:294-322`.  `s.currentMessage` was taken out before. -/
def progressCurrent (s : ClientSendState) (current : ClientCurrent) :
    ClientSendState × Except (Interrupt Empty) (Option ClientSendEvent) :=
  let (current, writeBuffer) := current.pushToBuffer
  if writeBuffer.isEmpty then
    match current.finishSending with
    | .uncompleted current event => ({ s with currentMessage := some current }, .ok event)
    | .completed event => ({ s with currentMessage := none }, .ok (some event))
  else
    ({ s with currentMessage := some current }, .error (.io (.output writeBuffer)))

/-- `ClientSendState::next`, `/repo/src/client_send.rs:273-323`. -/
def next (L : Lib) (s : ClientSendState) : Res ClientSendState Empty (Option ClientSendEvent) :=
  match s.currentMessage with
  | some current => .ok (progressCurrent s current)
  | none =>
    match s.queuedMessages with
    | [] => .ok (s, .ok none)
    | queued :: rest =>
      match queued.start L with
      | .error p => .error p
      | .ok current => .ok (progressCurrent { s with queuedMessages := rest } current)

end ClientSendState

end ImapFlow
