import Verif.Model.FullStream
import Verif.Spec.FullTrace
import Verif.Spec.TlsRecords
import Verif.Spec.Net

/-!
# A client and a server on two streams that are connected by a network

Unlike `Spec/Net.lean` the client and the server are driven by streams (`/repo/src/stream.rs`), with or
without TLS.  The network transports what the streams write to their sockets.  The users call `next`, `flush`
and the methods of the client and of the server between these calls, except `next` and `enqueue_input`, which
they leave to the streams.
-/

namespace ImapFlow

variable {K : Type}

/-- Both streams and what is on the way between the sockets. -/
structure StreamNet (K : Type) where
  client : FullStream K Client
  server : FullStream K Server
  /-- bytes on the way to the server -/
  toServer : Bytes
  /-- bytes on the way to the client -/
  toClient : Bytes

/-- What happens at one of the streams. -/
inductive SideAct (ι : Type) where
  /-- the owner calls a method of the state -/
  | user (op : ι)
  /-- `next` is called and polled for the first time -/
  | callNext
  /-- `flush` is called and polled for the first time -/
  | callFlush
  /-- the pending read takes up to `n` bytes from the network; none means end of file -/
  | read (n : Nat)
  /-- the pending write accepts the first `n` bytes -/
  | write (n : Nat)
  /-- the pending read or write fails -/
  | fail
  /-- the pending future is dropped -/
  | drop
  deriving DecidableEq, Repr

/-- The action of the stream. -/
def SideAct.toStream {ι : Type} (wire : Bytes) : SideAct ι → StreamAct ι
  | .user op => .user op
  | .callNext => .callNext
  | .callFlush => .callFlush
  | .read n => .read (wire.take n)
  | .write n => .write n
  | .fail => .fail
  | .drop => .drop

/-- What remains on the network. -/
def SideAct.rest {ι : Type} (wire : Bytes) : SideAct ι → Bytes
  | .read n => wire.drop n
  | _ => wire

/-- A step of the environment. -/
inductive StreamNetAct where
  | client (act : SideAct ClientOp)
  | server (act : SideAct ServerOp)
  deriving DecidableEq, Repr

/-- What happened. -/
inductive StreamNetItem where
  | client (item : FullItem ClientError ClientEvent ClientOp)
  | server (item : FullItem ServerError ServerEvent ServerOp)
  deriving DecidableEq, Repr

namespace StreamNet

/-- New streams for a new client and a new server. -/
def new (tc ts : Option (Tls K)) (gc : HandleGenerator) (oc : ClientOptions) (gs : HandleGenerator) (os : ServerOptions)
    (greeting : Greeting) : StreamNet K :=
  { client := { tls := tc, readBuffer := [], writeBuffer := [], state := Client.new gc oc, ctl := .at .idle }
    server := { tls := ts, readBuffer := [], writeBuffer := [], state := Server.new gs os greeting, ctl := .at .idle }
    toServer := [], toClient := [] }

/-- A step at the client. -/
def clientStep (L : Lib) (n : StreamNet K) (act : SideAct ClientOp) : Option (StreamNet K × List StreamNetItem) :=
  match n.client.step (clientMachine L) (act.toStream n.toClient) with
  | none => none
  | some (client, items) =>
    some ({ n with client, toClient := act.rest n.toClient, toServer := n.toServer ++ streamWrote (streamPart items) },
      items.map .client)

/-- A step at the server. -/
def serverStep (L : Lib) (n : StreamNet K) (act : SideAct ServerOp) : Option (StreamNet K × List StreamNetItem) :=
  match n.server.step (serverMachine L) (act.toStream n.toServer) with
  | none => none
  | some (server, items) =>
    some ({ n with server, toServer := act.rest n.toServer, toClient := n.toClient ++ streamWrote (streamPart items) },
      items.map .server)

/-- A step; `none` if it is not possible. -/
def step (L : Lib) (n : StreamNet K) : StreamNetAct → Option (StreamNet K × List StreamNetItem)
  | .client (.user .next) | .client (.user (.enqueueInput _)) => none
  | .server (.user .next) | .server (.user (.enqueueInput _)) => none
  | .client act => n.clientStep L act
  | .server act => n.serverStep L act

/-- A run; `none` if some step is not possible. -/
def run (L : Lib) (n : StreamNet K) : List StreamNetAct → Option (StreamNet K × List StreamNetItem)
  | [] => some (n, [])
  | a :: as =>
    match n.step L a with
    | none => none
    | some (n, items) =>
      match run L n as with
      | none => none
      | some (n, T) => some (n, items ++ T)

end StreamNet

/-- The calls on the client and on the server, as a schedule of `Spec/Net.lean`. -/
def StreamNetItem.calls : StreamNetItem → List NetOp
  | .client (.stream (.user op)) => [.client op]
  | .client (.stream (.deliver b)) => [.deliverToClient b.length]
  | .client (.stream (.poll _)) => [.client .next]
  | .server (.stream (.user op)) => [.server op]
  | .server (.stream (.deliver b)) => [.deliverToServer b.length]
  | .server (.stream (.poll _)) => [.server .next]
  | _ => []

/-- What happened at the client. -/
def StreamNetItem.client? : StreamNetItem → Option (StreamItem ClientError ClientEvent ClientOp)
  | .client (.stream i) => some i
  | _ => none

/-- What happened at the server. -/
def StreamNetItem.server? : StreamNetItem → Option (StreamItem ServerError ServerEvent ServerOp)
  | .server (.stream i) => some i
  | _ => none

/-- What happened at the client. -/
def atClient (G : List StreamNetItem) : List (StreamItem ClientError ClientEvent ClientOp) :=
  G.filterMap StreamNetItem.client?

/-- What happened at the server. -/
def atServer (G : List StreamNetItem) : List (StreamItem ServerError ServerEvent ServerOp) :=
  G.filterMap StreamNetItem.server?

/-- The result of the call of the state. -/
def StreamItem.poll? {ε ev ι : Type} : StreamItem ε ev ι → Option (Except (Interrupt ε) ev)
  | .poll r => some r
  | _ => none

/-- The result of the call of `next`. -/
def CItem.result? (i : CItem) : Option (Except (Interrupt ClientError) ClientEvent) :=
  match i.erase with
  | some (.next r) => some r
  | _ => none

/-- The result of the call of `next`. -/
def SItem.result? (i : SItem) : Option (Except (Interrupt ServerError) ServerEvent) :=
  match i.erase with
  | some (.next r) => some r
  | _ => none

/-- The response that the user wants to send. -/
def SItem.requested? : SItem → Option Response
  | .enqueue _ r => some r
  | .authContinue q _ | .idleAccept q _ => some (.continuationRequest q)
  | .authFinish st _ | .idleReject st _ => some (.status st)
  | _ => none

/-- The command that is enqueued. -/
def StreamItem.enqueued? {ε ev : Type} : StreamItem ε ev ClientOp → Option Command
  | .user (.enqueueCommand c) => some c
  | _ => none

/-- The response that the user wants to send. -/
def StreamItem.response? {ε ev : Type} : StreamItem ε ev ServerOp → Option Response
  | .user (.enqueueData d) => some (.data d)
  | .user (.enqueueStatus st) | .user (.authenticateFinish st) | .user (.idleReject st) => some (.status st)
  | .user (.enqueueContinuationRequest q) | .user (.authenticateContinue q) | .user (.idleAccept q) =>
    some (.continuationRequest q)
  | _ => none

/-- The event that is returned to the user. -/
def StreamItem.returned? {ε ev ι : Type} : StreamItem ε ev ι → Option ev
  | .returned (.ok e) => some e
  | _ => none

/-- All events that are returned to the user. -/
def events {ε ev ι : Type} (S : List (StreamItem ε ev ι)) : List ev := S.filterMap StreamItem.returned?

/-- The command that was received. -/
def ServerEvent.received? : ServerEvent → Option Command
  | .commandReceived c => some c
  | _ => none

/-- The command that was sent. -/
def ClientEvent.sentCommand? : ClientEvent → Option Command
  | .commandSent _ c => some c
  | _ => none

/-- The data that were received. -/
def ClientEvent.data? : ClientEvent → Option Data
  | .dataReceived d => some d
  | _ => none

/-- The data of a response. -/
def Response.data? : Response → Option Data
  | .data d => some d
  | _ => none

/-- Data or a status. -/
def Response.told? : Response → Option Response
  | .data d => some (.data d)
  | .status st => some (.status st)
  | .continuationRequest _ => none

/-- Data or a status that was received (outside of a dialogue). -/
def ClientEvent.told? : ClientEvent → Option Response
  | .dataReceived d => some (.data d)
  | .statusReceived st => some (.status st)
  | _ => none

/-- The event that reports a response outside of a dialogue. -/
def Response.report : Response → ClientEvent
  | .data d => .dataReceived d
  | .status st => .statusReceived st
  | .continuationRequest q => .continuationRequestReceived q

/-- Data or a status that the user enqueues (outside of a dialogue). -/
def StreamItem.told? {ε ev : Type} : StreamItem ε ev ServerOp → Option Response
  | .user (.enqueueData d) => some (.data d)
  | .user (.enqueueStatus st) => some (.status st)
  | _ => none

/-- Data or a status that the user enqueues (outside of a dialogue). -/
def SItem.told? : SItem → Option Response
  | .enqueue _ r => r.told?
  | _ => none

/-- The user of the client uses commands that the server can receive, and no command was rejected (which the user of
the server can cause at any time by a tagged BAD). -/
structure GoodSending (L : Lib) (os : ServerOptions) (G : List StreamNetItem) : Prop where
  regular : ∀ c ∈ (atClient G).filterMap StreamItem.enqueued?, c.isRegular = true
  roundTrip : ∀ c ∈ (atClient G).filterMap StreamItem.enqueued?, c.RoundTrip L os
  fits : ∀ c ∈ (atClient G).filterMap StreamItem.enqueued?, c.Fits L os
  accepted : ∀ h c st, .commandRejected h c st ∉ events (atClient G)

/-- Also, the user of the server uses responses that the client can receive. -/
structure GoodUse (L : Lib) (oc : ClientOptions) (os : ServerOptions) (gr : Greeting) (G : List StreamNetItem) : Prop
    extends GoodSending L os G where
  greeting : (ServerMessage.greeting gr).RoundTrip L oc
  responses : ∀ r ∈ (atServer G).filterMap StreamItem.response?, ∀ h, (ServerMessage.response h r).RoundTrip L oc
  /-- the continuation request that the server sends for a literal -/
  accepts : ∀ mode, ∀ m ∈ acceptReply L os mode, m.RoundTrip L oc

/-- Neither stream failed because of TLS, and there was no panic. -/
def Healthy (G : List StreamNetItem) : Prop :=
  (.client .hung ∉ G ∧ .client .broken ∉ G ∧ ∀ p, .client (.stream (.panicked p)) ∉ G) ∧
  (.server .hung ∉ G ∧ .server .broken ∉ G ∧ ∀ p, .server (.stream (.panicked p)) ∉ G)

/-- Both users wait for an event, and nothing is on the way. -/
def StreamNet.Waiting (n : StreamNet K) : Prop :=
  n.toServer = [] ∧ n.toClient = [] ∧ n.client.ctl = .at .reading ∧ n.server.ctl = .at .reading

/-- The connections of both sides after the handshake (or none): they use the same record layer, what one side
seals is opened by the other one, and nothing is on the way. -/
def Handshaken (paired : K → K → Prop) : Option (Tls K) → Option (Tls K) → Prop
  | none, none => True
  | some t, some u => (u.layer = t.layer ∧ t.layer.Receives ∧ t.layer.Delivers paired) ∧
      (t.Ready ∧ t.raw = [] ∧ t.sendable = [] ∧ paired t.writeKey u.readKey) ∧
      (u.Ready ∧ u.raw = [] ∧ u.sendable = [] ∧ paired u.writeKey t.readKey)
  | _, _ => False

/-- `plain` is on the way to `receiver` if `bytes` are on the way. -/
def InFlight (receiver : Option (Tls K)) (bytes plain : Bytes) : Prop :=
  match receiver with
  | none => plain = bytes
  | some r => ∃ (ds : List Bytes) (k : K), r.layer.Carries r.readKey (r.raw ++ bytes) (ds.map .data) k ∧ ds.flatten = plain

end ImapFlow
