import Verif.Model.Client

/-!
# Histories of API calls on a client

The user of a `Client` makes API calls in any order.  A history is the list of the calls together
with what they returned.
-/

namespace ImapFlow

/-- A call of the public API of `Client` (`/repo/src/client.rs:75,240,247,264,272`). -/
inductive ClientOp where
  | enqueueCommand (command : Command)
  | enqueueInput (bytes : Bytes)
  | next
  | setAuthenticateData (data : AuthenticateData)
  | setIdleDone
  deriving DecidableEq, Repr

/-- A call together with its result. -/
inductive ClientObs where
  | enqueued (handle : RawHandle) (command : Command)
  | input (bytes : Bytes)
  | next (result : Except (Interrupt ClientError) ClientEvent)
  | setAuthenticateData (data : AuthenticateData) (result : Except AuthenticateData RawHandle)
  | setIdleDone (result : Option RawHandle)
  deriving DecidableEq, Repr

/-- Perform one call. -/
def Client.call (L : Lib) (c : Client) : ClientOp → Except Panic (Client × ClientObs)
  | .enqueueCommand command =>
    let (c, handle) := c.enqueueCommand command
    .ok (c, .enqueued handle command)
  | .enqueueInput bytes => (c.enqueueInput bytes).map fun c => (c, .input bytes)
  | .next => (c.next L).map fun (c, r) => (c, .next r)
  | .setAuthenticateData data =>
    (c.setAuthenticateData L data).map fun (c, r) => (c, .setAuthenticateData data r)
  | .setIdleDone => (c.setIdleDone L).map fun (c, r) => (c, .setIdleDone r)

/-- Perform a list of calls; stops at a panic. -/
def Client.run (L : Lib) (c : Client) : List ClientOp → Except Panic (Client × List ClientObs)
  | [] => .ok (c, [])
  | op :: ops =>
    match c.call L op with
    | .error p => .error p
    | .ok (c, obs) =>
      match Client.run L c ops with
      | .error p => .error p
      | .ok (c, h) => .ok (c, obs :: h)

/-- The client is reachable: some history of calls on a new client leads to it. -/
def Client.Reachable (L : Lib) (c : Client) : Prop :=
  ∃ g o ops h, Client.run L (Client.new g o) ops = .ok (c, h)

/-- The bytes received by the client in a history. -/
def clientInput : List ClientObs → Bytes
  | [] => []
  | .input bytes :: h => bytes ++ clientInput h
  | _ :: h => clientInput h

/-- What `next` reported in a history, without the requests for more input. -/
def clientReports : List ClientObs → List (Except (Interrupt ClientError) ClientEvent)
  | [] => []
  | .next r :: h =>
    if r = .error (.io .needMoreInput) then clientReports h else r :: clientReports h
  | _ :: h => clientReports h

/-- The user only feeds input and calls `next`. -/
def FeedOnly (ops : List ClientOp) : Prop :=
  ∀ op ∈ ops, op = .next ∨ ∃ bytes, op = .enqueueInput bytes

end ImapFlow
