import Verif.Model.Server

/-!
# Histories of API calls on a server
-/

namespace ImapFlow

/-- A call of the public API of `Server` (`/repo/src/server.rs:146-180,405-463,479-499`). -/
inductive ServerOp where
  | enqueueData (data : Data)
  | enqueueStatus (status : Status)
  | enqueueContinuationRequest (request : ContinuationRequest)
  | authenticateContinue (request : ContinuationRequest)
  | authenticateFinish (status : Status)
  | idleAccept (request : ContinuationRequest)
  | idleReject (status : Status)
  | enqueueInput (bytes : Bytes)
  | next
  deriving DecidableEq, Repr

/-- A call together with its result. -/
inductive ServerObs where
  | enqueued (handle : RawHandle) (response : Response)
  | authenticateContinue (request : ContinuationRequest) (result : Except ContinuationRequest RawHandle)
  | authenticateFinish (status : Status) (result : Except Status RawHandle)
  | idleAccept (request : ContinuationRequest) (result : Except ContinuationRequest RawHandle)
  | idleReject (status : Status) (result : Except Status RawHandle)
  | input (bytes : Bytes)
  | next (result : Except (Interrupt ServerError) ServerEvent)
  deriving DecidableEq, Repr

/-- Perform one call. -/
def Server.call (L : Lib) (s : Server) : ServerOp → Except Panic (Server × ServerObs)
  | .enqueueData data =>
    let (s, handle) := s.enqueueData data
    .ok (s, .enqueued handle (.data data))
  | .enqueueStatus status =>
    let (s, handle) := s.enqueueStatus status
    .ok (s, .enqueued handle (.status status))
  | .enqueueContinuationRequest request =>
    let (s, handle) := s.enqueueContinuationRequest request
    .ok (s, .enqueued handle (.continuationRequest request))
  | .authenticateContinue request =>
    let (s, r) := s.authenticateContinue request
    .ok (s, .authenticateContinue request r)
  | .authenticateFinish status =>
    (s.authenticateFinish status).map fun (s, r) => (s, .authenticateFinish status r)
  | .idleAccept request => (s.idleAccept request).map fun (s, r) => (s, .idleAccept request r)
  | .idleReject status => (s.idleReject status).map fun (s, r) => (s, .idleReject status r)
  | .enqueueInput bytes => (s.enqueueInput bytes).map fun s => (s, .input bytes)
  | .next => (s.next L).map fun (s, r) => (s, .next r)

/-- Perform a list of calls; stops at a panic. -/
def Server.run (L : Lib) (s : Server) : List ServerOp → Except Panic (Server × List ServerObs)
  | [] => .ok (s, [])
  | op :: ops =>
    match s.call L op with
    | .error p => .error p
    | .ok (s, obs) =>
      match Server.run L s ops with
      | .error p => .error p
      | .ok (s, h) => .ok (s, obs :: h)

/-- Options that can be built with the public API: the default, then any sequence of setter calls
(successful or not) and assignments of the public fields (`/repo/src/server.rs:33-111`). -/
inductive ServerOptions.Built (L : Lib) : ServerOptions → Prop
  | default {o : ServerOptions} : ServerOptions.default L = .ok o → Built L o
  | crlfRelaxed {o : ServerOptions} (b : Bool) : Built L o → Built L { o with crlfRelaxed := b }
  | maxLiteralSize {o : ServerOptions} (n : Nat) : Built L o → Built L { o with maxLiteralSize := n }
  | maxCommandSize {o : ServerOptions} (n : Nat) : Built L o → Built L { o with maxCommandSize := n }
  | accept {o o' : ServerOptions} {text : Bytes} {r : Except Bytes Unit} : Built L o →
      o.setLiteralAcceptText L text = .ok (o', r) → Built L o'
  | reject {o o' : ServerOptions} {text : Bytes} {r : Except Bytes Unit} : Built L o →
      o.setLiteralRejectText L text = .ok (o', r) → Built L o'

/-- The server is reachable: some history of calls on a new server leads to it. -/
def Server.Reachable (L : Lib) (s : Server) : Prop :=
  ∃ g o greeting ops h, ServerOptions.Built L o ∧ Server.run L (Server.new g o greeting) ops = .ok (s, h)

/-- The bytes received by the server in a history. -/
def serverInput : List ServerObs → Bytes
  | [] => []
  | .input bytes :: h => bytes ++ serverInput h
  | _ :: h => serverInput h

/-- The event is the reception of a message. -/
def ServerEvent.isReception : ServerEvent → Bool
  | .greetingSent _ | .responseSent _ _ => false
  | _ => true

/-- What the server received in a history: message events and errors, in order. -/
def serverReceived : List ServerObs → List (Except ServerError ServerEvent)
  | [] => []
  | .next (.ok event) :: h =>
    if event.isReception then .ok event :: serverReceived h else serverReceived h
  | .next (.error (.error e)) :: h => .error e :: serverReceived h
  | _ :: h => serverReceived h

/-- The user feeds input, calls `next` and enqueues responses, but does not change the phase of the
server (AUTHENTICATE/IDLE). -/
def ReceptionOnly (ops : List ServerOp) : Prop :=
  ∀ op ∈ ops, op = .next ∨ (∃ bytes, op = .enqueueInput bytes) ∨ (∃ d, op = .enqueueData d) ∨
    (∃ s, op = .enqueueStatus s) ∨ ∃ r, op = .enqueueContinuationRequest r

end ImapFlow
