import Verif.Model.Types
import Verif.Model.Handle

/-!
# Server: sending responses (`/repo/src/server_send.rs`)
-/

namespace ImapFlow

/-- `QueuedMessage`, `/repo/src/server_send.rs:82-90`.  `CurrentMessage` (lines 129-137) and
`ServerSendEvent` (lines 140-148) have the same variants and fields; one type models the three. -/
inductive ServerMessage where
  | greeting (greeting : Greeting)
  | response (handle : Option RawHandle) (response : Response)
  deriving DecidableEq, Repr

/-- `ServerSendState`, `/repo/src/server_send.rs:11-18`. -/
structure ServerSendState where
  queuedMessages : List ServerMessage
  currentMessage : Option ServerMessage
  deriving DecidableEq, Repr

/-- `push_encoded_to_buffer`, `/repo/src/server_send.rs:114-126`: concatenates the data of all
fragments. -/
def pushEncodedToBuffer (encoded : List Fragment) : Bytes :=
  encoded.flatMap Fragment.data

/-- `QueuedMessage::push_to_buffer`, `/repo/src/server_send.rs:93-111`: the bytes written; the
message itself becomes the current message. -/
def ServerMessage.pushToBuffer (L : Lib) : ServerMessage → Bytes
  | .greeting g => pushEncodedToBuffer (L.encodeGreeting g)
  | .response _ r => pushEncodedToBuffer (L.encodeResponse r)

namespace ServerSendState

/-- `ServerSendState::new`, `/repo/src/server_send.rs:21-28`. -/
def new : ServerSendState := { queuedMessages := [], currentMessage := none }

/-- `ServerSendState::enqueue_greeting`, `/repo/src/server_send.rs:30-33`. -/
def enqueueGreeting (s : ServerSendState) (greeting : Greeting) : ServerSendState :=
  { s with queuedMessages := s.queuedMessages ++ [.greeting greeting] }

/-- `ServerSendState::enqueue_response`, `/repo/src/server_send.rs:35-42`. -/
def enqueueResponse (s : ServerSendState) (handle : Option RawHandle) (response : Response) :
    ServerSendState :=
  { s with queuedMessages := s.queuedMessages ++ [.response handle response] }

/-- `ServerSendState::next`, `/repo/src/server_send.rs:44-78`. -/
def next (L : Lib) (s : ServerSendState) :
    ServerSendState × Except (Interrupt Empty) (Option ServerMessage) :=
  match s.currentMessage with
  | some currentMessage => ({ s with currentMessage := none }, .ok (some currentMessage))
  | none =>
    match s.queuedMessages with
    | [] => (s, .ok none)
    | queuedMessage :: rest =>
      ({ queuedMessages := rest, currentMessage := some queuedMessage },
       .error (.io (.output (queuedMessage.pushToBuffer L))))

end ServerSendState

end ImapFlow
