import Verif.Spec.Proxy
import Verif.Spec.StreamNet

/-!
# A client and a server with the proxy between them

The user of a client and the user of a server, each with a stream of `/repo/src/stream.rs`, and the proxy
(`/repo/proxy/src/proxy.rs`) between them; each of the two connections is with or without TLS.  The network transports
what is written to the sockets.  Nothing here uses the functions of the proxy except its step.
-/

namespace ImapFlow

variable {K : Type}

/-- The client, the proxy, the server, and what is on the way between their sockets. -/
structure Relay (K : Type) where
  client : FullStream K Client
  proxy : Proxy K
  server : FullStream K Server
  clientToProxy : Bytes
  proxyToClient : Bytes
  proxyToServer : Bytes
  serverToProxy : Bytes

/-- What happens at one of the connections of the proxy. -/
inductive PollAct where
  /-- the branch is polled for the first time -/
  | poll
  /-- the pending read takes up to `n` bytes from the network; none means end of file -/
  | read (n : Nat)
  /-- the pending write accepts the first `n` bytes -/
  | write (n : Nat)
  /-- the pending read or write fails -/
  | fail
  deriving DecidableEq, Repr

/-- The action on the connection. -/
def PollAct.toIo (wire : Bytes) : PollAct → IoAct
  | .poll => .poll
  | .read n => .read (wire.take n)
  | .write n => .write n
  | .fail => .fail

/-- What remains on the network. -/
def PollAct.rest (wire : Bytes) : PollAct → Bytes
  | .read n => wire.drop n
  | _ => wire

/-- A step of the environment. -/
inductive RelayAct where
  /-- at the client and its user -/
  | client (act : SideAct ClientOp)
  /-- at the proxy's connection to the client -/
  | proxyClient (act : PollAct)
  /-- at the proxy's connection to the server -/
  | proxyServer (act : PollAct)
  /-- at the server and its user -/
  | server (act : SideAct ServerOp)
  deriving DecidableEq, Repr

/-- What happened. -/
inductive RelayItem where
  | client (item : FullItem ClientError ClientEvent ClientOp)
  | proxy (item : ProxyItem)
  | server (item : FullItem ServerError ServerEvent ServerOp)
  deriving DecidableEq, Repr

namespace Relay

/-- A new client, a new server, and a proxy that has just been connected to both.  `tc`, `tpc`, `tps`, `ts` are the
TLS connections (if any) of the client, of the proxy to the client, of the proxy to the server, and of the server. -/
def new (tc tpc tps ts : Option (Tls K)) (gc : HandleGenerator) (oc : ClientOptions) (gpc : HandleGenerator)
    (gs : HandleGenerator) (os : ServerOptions) (greeting : Greeting) : Relay K :=
  { client := .new tc (Client.new gc oc)
    proxy := .start tpc tps gpc
    server := .new ts (Server.new gs os greeting)
    clientToProxy := [], proxyToClient := [], proxyToServer := [], serverToProxy := [] }

/-- The proxy did something and wrote to its sockets. -/
def proxied (r : Relay K) (proxy : Proxy K) (items : List ProxyItem) : Relay K :=
  { r with
    proxy
    proxyToClient := r.proxyToClient ++ streamWrote (clientSide items)
    proxyToServer := r.proxyToServer ++ streamWrote (serverSide items) }

/-- A step at the client. -/
def clientStep (L : Lib) (r : Relay K) (act : SideAct ClientOp) : Option (Relay K × List RelayItem) :=
  match r.client.step (clientMachine L) (act.toStream r.proxyToClient) with
  | none => none
  | some (client, items) =>
    some ({ r with
      client
      proxyToClient := act.rest r.proxyToClient
      clientToProxy := r.clientToProxy ++ streamWrote (streamPart items) }, items.map .client)

/-- A step at the server. -/
def serverStep (L : Lib) (r : Relay K) (act : SideAct ServerOp) : Option (Relay K × List RelayItem) :=
  match r.server.step (serverMachine L) (act.toStream r.proxyToServer) with
  | none => none
  | some (server, items) =>
    some ({ r with
      server
      proxyToServer := act.rest r.proxyToServer
      serverToProxy := r.serverToProxy ++ streamWrote (streamPart items) }, items.map .server)

/-- A step; `none` if it is not possible.  `g` is the handle generator of the proxy's server.  The users leave `next`
and `enqueue_input` of the client and of the server to the streams. -/
def step (L : Lib) (g : HandleGenerator) (r : Relay K) : RelayAct → Option (Relay K × List RelayItem)
  | .client (.user .next) | .client (.user (.enqueueInput _)) => none
  | .server (.user .next) | .server (.user (.enqueueInput _)) => none
  | .client act => r.clientStep L act
  | .server act => r.serverStep L act
  | .proxyClient act =>
    match r.proxy.step L g (.client (act.toIo r.clientToProxy)) with
    | none => none
    | some (proxy, items) =>
      some ({ r with clientToProxy := act.rest r.clientToProxy }.proxied proxy items, items.map .proxy)
  | .proxyServer act =>
    match r.proxy.step L g (.server (act.toIo r.serverToProxy)) with
    | none => none
    | some (proxy, items) =>
      some ({ r with serverToProxy := act.rest r.serverToProxy }.proxied proxy items, items.map .proxy)

/-- A run; `none` if some step is not possible. -/
def run (L : Lib) (g : HandleGenerator) (r : Relay K) : List RelayAct → Option (Relay K × List RelayItem)
  | [] => some (r, [])
  | a :: as =>
    match r.step L g a with
    | none => none
    | some (r, items) =>
      match run L g r as with
      | none => none
      | some (r, R) => some (r, items ++ R)

end Relay

/-- What happened at the client, including failures of TLS. -/
def RelayItem.client? : RelayItem → Option (FullItem ClientError ClientEvent ClientOp)
  | .client i => some i
  | _ => none

/-- What happened at the proxy. -/
def RelayItem.proxy? : RelayItem → Option ProxyItem
  | .proxy i => some i
  | _ => none

/-- What happened at the server, including failures of TLS. -/
def RelayItem.server? : RelayItem → Option (FullItem ServerError ServerEvent ServerOp)
  | .server i => some i
  | _ => none

/-- What happened at the client. -/
def relayClient (R : List RelayItem) : List (FullItem ClientError ClientEvent ClientOp) := R.filterMap RelayItem.client?

/-- What happened at the proxy. -/
def relayProxy (R : List RelayItem) : List ProxyItem := R.filterMap RelayItem.proxy?

/-- What happened at the server. -/
def relayServer (R : List RelayItem) : List (FullItem ServerError ServerEvent ServerOp) := R.filterMap RelayItem.server?

/-- The commands that the user of the client enqueued. -/
def relayedCommands (R : List RelayItem) : List Command := (streamPart (relayClient R)).filterMap StreamItem.enqueued?

/-- The responses that the user of the server wants to send. -/
def relayedResponses (R : List RelayItem) : List Response := (streamPart (relayServer R)).filterMap StreamItem.response?

/-- rustls refused no plaintext, see `C50_accepted` and `C55_accepted`. -/
def RelayAccepted (R : List RelayItem) : Prop :=
  .client .refused ∉ R ∧ .server .refused ∉ R ∧ .proxy (.clientTls .refused) ∉ R ∧ .proxy (.serverTls .refused) ∉ R

/-- The users use commands that the proxy (whose options are `op`) and the server can receive, and responses that the
proxy and the client can receive, and no command was rejected. -/
structure GoodRelay (L : Lib) (oc : ClientOptions) (op os : ServerOptions) (gr : Greeting) (R : List RelayItem) : Prop where
  regular : ∀ c ∈ relayedCommands R, c.isRegular = true
  roundTrip : ∀ c ∈ relayedCommands R, c.RoundTrip L op ∧ c.RoundTrip L os
  fits : ∀ c ∈ relayedCommands R, c.Fits L op ∧ c.Fits L os
  accepted : ∀ h c st, .commandRejected h c st ∉ events (streamPart (relayClient R)) ∧
    .commandRejected h c st ∉ streamEvents (serverSide (relayProxy R))
  greeting : (ServerMessage.greeting gr).RoundTrip L .default ∧ (ServerMessage.greeting gr.restrict).RoundTrip L oc
  responses : ∀ r ∈ relayedResponses R, ∀ h, (ServerMessage.response h r).RoundTrip L .default ∧
    (ServerMessage.response h r.restrict).RoundTrip L oc
  /-- the continuation requests that the server and the proxy send for literals -/
  accepts : ∀ mode, (∀ m ∈ acceptReply L os mode, m.RoundTrip L .default ∧ m.RoundTrip L oc) ∧
    ∀ m ∈ acceptReply L op mode, m.RoundTrip L oc

/-- Both users and the proxy wait, and nothing is on the way. -/
def Relay.Waiting (r : Relay K) : Prop :=
  (r.clientToProxy = [] ∧ r.proxyToClient = [] ∧ r.proxyToServer = [] ∧ r.serverToProxy = []) ∧
  r.client.ctl = .at .reading ∧ r.server.ctl = .at .reading ∧
  ∃ c s, r.proxy = .conversation c s ∧ c.ctl = .at .reading ∧ s.ctl = .at .reading

end ImapFlow
