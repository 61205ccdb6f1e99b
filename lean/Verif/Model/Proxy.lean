import Verif.Model.ProxyUtil
import Verif.Model.Server
import Verif.Model.FullStream
import Verif.Spec.StreamTrace

/-!
# Proxy: the conversation (`/repo/proxy/src/proxy.rs`)

`Proxy::start_conversation` and the event handlers; each connection is with or without TLS.  Like the streams
(`Model/FullStream.lean`), the conversation is a transition system whose actions are chosen by the
environment: which branch of `select!` is polled, and what the sockets do.  When a branch completes, the
future of the other branch is dropped and the handler runs.

Accepting and establishing connections is in `Model/Service.lean`; logging is not modelled.
-/

namespace ImapFlow

/-- ASCII text. -/
def ascii (s : String) : Text := s.toList.map fun c => UInt8.ofNat c.toNat

/-- `LITERAL_ACCEPT_TEXT`, `/repo/proxy/src/proxy.rs:39`. -/
def literalAcceptText : Text := ascii "proxy: Literal accepted by proxy"

/-- `LITERAL_REJECT_TEXT`, `/repo/proxy/src/proxy.rs:40`. -/
def literalRejectText : Text := ascii "proxy: Literal rejected by proxy"

/-- `COMMAND_REJECTED_TEXT`, `/repo/proxy/src/proxy.rs:41`. -/
def commandRejectedText : Text := ascii "proxy: Command rejected by server"

/-- `ControlFlow`, `/repo/proxy/src/util.rs:15-18`. -/
inductive ControlFlow where
  | «continue» | abort
  deriving DecidableEq, Repr

/-- `Status::code`. -/
def Status.code : Status → Option Code
  | .untagged body => body.code
  | .tagged _ body => body.code
  | .bye code _ => code

/-- `Status::text`. -/
def Status.text : Status → Text
  | .untagged body => body.text
  | .tagged _ body => body.text
  | .bye _ text => text

/-- `.unwrap()` on the result of a call. -/
def unwrap {α β : Type} : Except α β → Except Panic β
  | .ok b => .ok b
  | .error _ => .error .unwrapFailed

/-- `handle_client_event`, `/repo/proxy/src/proxy.rs:239-328`.  Also returns the calls that were made. -/
def handleClientEvent (L : Lib) (result : Except (StreamError ServerError) ServerEvent) (proxyToServer : Client) :
    Except Panic (Client × List ClientOp × ControlFlow) :=
  match result with
  | .error .closed => .ok (proxyToServer, [], .abort)
  | .error .io => .ok (proxyToServer, [], .abort)
  | .error .tls => .ok (proxyToServer, [], .abort)
  | .error (.state _) => .ok (proxyToServer, [], .continue)
  | .ok event =>
    match event with
    | .greetingSent _ => .ok (proxyToServer, [], .continue)
    | .responseSent _ _ => .ok (proxyToServer, [], .continue)
    | .commandReceived command =>
      .ok ((proxyToServer.enqueueCommand command).1, [.enqueueCommand command], .continue)
    | .commandAuthenticateReceived commandAuthenticate =>
      let command := commandAuthenticate.toCommand
      .ok ((proxyToServer.enqueueCommand command).1, [.enqueueCommand command], .continue)
    | .authenticateDataReceived authenticateData =>
      match proxyToServer.setAuthenticateData L authenticateData with
      | .error p => .error p
      | .ok (proxyToServer, r) =>
        match unwrap r with
        | .error p => .error p
        | .ok _ => .ok (proxyToServer, [.setAuthenticateData authenticateData], .continue)
    | .idleCommandReceived tag =>
      let idle : Command := { tag, body := .idle }
      .ok ((proxyToServer.enqueueCommand idle).1, [.enqueueCommand idle], .continue)
    | .idleDoneReceived =>
      match proxyToServer.setIdleDone L with
      | .error p => .error p
      | .ok (proxyToServer, _) => .ok (proxyToServer, [.setIdleDone], .continue)

/-- The status that replaces the rejection of a command, `/repo/proxy/src/proxy.rs:377-392`.
`Status::bad` with a validated text cannot fail in `imap-types`. -/
def modifiedStatus (L : Lib) (command : Command) (status : Status) : Except Panic Status :=
  match status.code with
  | some .alert => .ok (.tagged command.tag { kind := .bad, code := some .alert, text := status.text })
  | _ =>
    if L.textValid commandRejectedText then
      .ok (.tagged command.tag { kind := .bad, code := none, text := commandRejectedText })
    else .error .unwrapFailed

/-- `handle_server_event`, `/repo/proxy/src/proxy.rs:330-473`.  Also returns the calls that were made. -/
def handleServerEvent (L : Lib) (result : Except (StreamError ClientError) ClientEvent) (clientToProxy : Server) :
    Except Panic (Server × List ServerOp × ControlFlow) :=
  match result with
  | .error .closed => .ok (clientToProxy, [], .abort)
  | .error .io => .ok (clientToProxy, [], .abort)
  | .error .tls => .ok (clientToProxy, [], .abort)
  | .error (.state _) => .ok (clientToProxy, [], .continue)
  | .ok event =>
    match event with
    | .greetingReceived _ => .ok (clientToProxy, [], .continue)
    | .commandSent _ _ => .ok (clientToProxy, [], .continue)
    | .commandRejected _ command status =>
      match modifiedStatus L command status with
      | .error p => .error p
      | .ok status => .ok ((clientToProxy.enqueueStatus status).1, [.enqueueStatus status], .continue)
    | .authenticateStarted _ => .ok (clientToProxy, [], .continue)
    | .authenticateContinuationRequestReceived _ request =>
      match clientToProxy.authenticateContinue request with
      | (clientToProxy, r) =>
        match unwrap r with
        | .error p => .error p
        | .ok _ => .ok (clientToProxy, [.authenticateContinue request], .continue)
    | .authenticateStatusReceived _ _ status =>
      match clientToProxy.authenticateFinish status with
      | .error p => .error p
      | .ok (clientToProxy, r) =>
        match unwrap r with
        | .error p => .error p
        | .ok _ => .ok (clientToProxy, [.authenticateFinish status], .continue)
    | .dataReceived data =>
      let data := filterCapabilitiesInData data
      .ok ((clientToProxy.enqueueData data).1, [.enqueueData data], .continue)
    | .statusReceived status =>
      let status := filterCapabilitiesInStatus status
      .ok ((clientToProxy.enqueueStatus status).1, [.enqueueStatus status], .continue)
    | .continuationRequestReceived request =>
      match filterCapabilitiesInContinuation L request with
      | .error p => .error p
      | .ok request =>
        .ok ((clientToProxy.enqueueContinuationRequest request).1, [.enqueueContinuationRequest request], .continue)
    | .idleCommandSent _ => .ok (clientToProxy, [], .continue)
    | .idleAccepted _ request =>
      match clientToProxy.idleAccept request with
      | .error p => .error p
      | .ok (clientToProxy, r) =>
        match unwrap r with
        | .error p => .error p
        | .ok _ => .ok (clientToProxy, [.idleAccept request], .continue)
    | .idleRejected _ status =>
      match clientToProxy.idleReject status with
      | .error p => .error p
      | .ok (clientToProxy, r) =>
        match unwrap r with
        | .error p => .error p
        | .ok _ => .ok (clientToProxy, [.idleReject status], .continue)
    | .idleDoneSent _ => .ok (clientToProxy, [], .continue)

/-- The options of `client_to_proxy`, `/repo/proxy/src/proxy.rs:210-218`. -/
def proxyServerOptions (L : Lib) : Except Panic ServerOptions :=
  match ServerOptions.default L with
  | .error p => .error p
  | .ok options =>
    match options.setLiteralAcceptText L literalAcceptText with
    | .error p => .error p
    | .ok (options, r) =>
      match unwrap r with
      | .error p => .error p
      | .ok _ =>
        match options.setLiteralRejectText L literalRejectText with
        | .error p => .error p
        | .ok (options, r) =>
          match unwrap r with
          | .error p => .error p
          | .ok _ => .ok options

/-- A running `start_conversation`. -/
inductive Proxy (K : Type) where
  /-- awaiting the greeting, `/repo/proxy/src/proxy.rs:194`; the stream to the client has not been used yet -/
  | greeting (clientTls : Option (Tls K)) (proxyToServer : FullStream K Client)
  /-- in the loop, `/repo/proxy/src/proxy.rs:222-235` -/
  | conversation (clientToProxy : FullStream K Server) (proxyToServer : FullStream K Client)
  /-- returned; both connections are closed -/
  | over
  /-- a `decrypt` does not end; both connections are open and nothing is read from them anymore -/
  | hung
  /-- panicked; both connections are closed -/
  | dead

/-- What the environment does with one of the connections. -/
inductive IoAct where
  /-- the branch is polled for the first time -/
  | poll
  /-- the pending read completes with these bytes; none means end of file -/
  | read (bytes : Bytes)
  /-- the pending write accepts the first `n` bytes -/
  | write (n : Nat)
  /-- the pending read or write fails -/
  | fail
  deriving DecidableEq, Repr

/-- As an action on a stream. -/
def IoAct.toStream {ι : Type} : IoAct → StreamAct ι
  | .poll => .callNext
  | .read bytes => .read bytes
  | .write n => .write n
  | .fail => .fail

/-- What the environment does. -/
inductive ProxyAct where
  | client (act : IoAct)
  | server (act : IoAct)
  deriving DecidableEq, Repr

/-- What happens only on a connection with TLS, see `FullItem`. -/
inductive TlsItem where
  | refused
  | broken
  | hung
  deriving DecidableEq, Repr

/-- What happens: on the connection to the client, on the connection to the server, or to the proxy. -/
inductive ProxyItem where
  | client (item : StreamItem ServerError ServerEvent ServerOp)
  | server (item : StreamItem ClientError ClientEvent ClientOp)
  | clientTls (item : TlsItem)
  | serverTls (item : TlsItem)
  | panicked (p : Panic)
  deriving DecidableEq, Repr

/-- Something happens on the connection to the client. -/
def ProxyItem.ofClient : FullItem ServerError ServerEvent ServerOp → ProxyItem
  | .stream item => .client item
  | .refused => .clientTls .refused
  | .broken => .clientTls .broken
  | .hung => .clientTls .hung

/-- Something happens on the connection to the server. -/
def ProxyItem.ofServer : FullItem ClientError ClientEvent ClientOp → ProxyItem
  | .stream item => .server item
  | .refused => .serverTls .refused
  | .broken => .serverTls .broken
  | .hung => .serverTls .hung

/-- The result of `next` if it has returned. -/
def nextResult {ε ev ι : Type} (items : List (FullItem ε ev ι)) : Option (Except (StreamError ε) ev) :=
  items.findSome? fun
    | .stream (.returned r) => some r
    | .broken => some (.error .tls)
    | _ => none

/-- A new stream, `/repo/src/stream.rs:29-72`. -/
def FullStream.new {K σ : Type} (tls : Option (Tls K)) (state : σ) : FullStream K σ :=
  match tls with
  | none => .insecure state
  | some tls => .secure tls state

/-- `select!` drops the future of the branch that did not complete. -/
def FullStream.dropFuture {K σ ε ev ι : Type} (c : FullStream K σ) : FullStream K σ × List (FullItem ε ev ι) :=
  match c.ctl with
  | .at .reading | .at .racing | .at .flushing => ({ c with ctl := .at .idle }, [.stream .dropped])
  | _ => (c, [])

namespace Proxy

variable {K : Type}

/-- The start of `start_conversation`, `/repo/proxy/src/proxy.rs:187-193`; the TLS connections (if any) to the client
and to the server, after their handshakes. -/
def start (clientTls serverTls : Option (Tls K)) (proxyToServer : HandleGenerator) : Proxy K :=
  .greeting clientTls (.new serverTls (Client.new proxyToServer .default))

/-- After the greeting was awaited, `/repo/proxy/src/proxy.rs:194-220`; `g` is the handle generator of the
new server. -/
def afterGreeting (L : Lib) (g : HandleGenerator) (clientTls : Option (Tls K)) (proxyToServer : FullStream K Client) :
    Except (StreamError ClientError) ClientEvent → Except Panic (Proxy K)
  | .ok (.greetingReceived received) =>
    match proxyServerOptions L with
    | .error p => .error p
    | .ok options =>
      .ok (.conversation (.new clientTls (Server.new g options (filterCapabilitiesInGreeting received))) proxyToServer)
  | .ok _ => .ok .over
  | .error _ => .ok .over

/-- The branch of the client has completed, `/repo/proxy/src/proxy.rs:224-226,232-234`. -/
def clientBranch (L : Lib) (clientToProxy : FullStream K Server) (proxyToServer : FullStream K Client)
    (result : Except (StreamError ServerError) ServerEvent) : Proxy K × List ProxyItem :=
  let (proxyToServer, dropped) := proxyToServer.dropFuture
  let dropped := dropped.map ProxyItem.ofServer
  match handleClientEvent L result proxyToServer.state with
  | .error p => (.dead, dropped ++ [.panicked p])
  | .ok (state, calls, flow) =>
    let items := dropped ++ calls.map fun op => ProxyItem.server (.user op)
    match flow with
    | .abort => (.over, items)
    | .continue => (.conversation clientToProxy { proxyToServer with state }, items)

/-- The branch of the server has completed, `/repo/proxy/src/proxy.rs:227-229,232-234`. -/
def serverBranch (L : Lib) (clientToProxy : FullStream K Server) (proxyToServer : FullStream K Client)
    (result : Except (StreamError ClientError) ClientEvent) : Proxy K × List ProxyItem :=
  let (clientToProxy, dropped) := clientToProxy.dropFuture
  let dropped := dropped.map ProxyItem.ofClient
  match handleServerEvent L result clientToProxy.state with
  | .error p => (.dead, dropped ++ [.panicked p])
  | .ok (state, calls, flow) =>
    let items := dropped ++ calls.map fun op => ProxyItem.client (.user op)
    match flow with
    | .abort => (.over, items)
    | .continue => (.conversation { clientToProxy with state } proxyToServer, items)

/-- One step; `none` if the action is not possible. -/
def step (L : Lib) (g : HandleGenerator) : Proxy K → ProxyAct → Option (Proxy K × List ProxyItem)
  | .greeting clientTls proxyToServer, .server act =>
    match proxyToServer.step (clientMachine L) act.toStream with
    | none => none
    | some (proxyToServer, items) =>
      let items' := items.map ProxyItem.ofServer
      if proxyToServer.ctl = .at .dead then some (.dead, items')
      else if proxyToServer.ctl = .hung then some (.hung, items')
      else
        match nextResult items with
        | none => some (.greeting clientTls proxyToServer, items')
        | some result =>
          match afterGreeting L g clientTls proxyToServer result with
          | .error p => some (.dead, items' ++ [.panicked p])
          | .ok proxy => some (proxy, items')
  | .conversation clientToProxy proxyToServer, .client act =>
    match clientToProxy.step (serverMachine L) act.toStream with
    | none => none
    | some (clientToProxy, items) =>
      let items' := items.map ProxyItem.ofClient
      if clientToProxy.ctl = .at .dead then some (.dead, items')
      else if clientToProxy.ctl = .hung then some (.hung, items')
      else
        match nextResult items with
        | none => some (.conversation clientToProxy proxyToServer, items')
        | some result =>
          let (proxy, more) := clientBranch L clientToProxy proxyToServer result
          some (proxy, items' ++ more)
  | .conversation clientToProxy proxyToServer, .server act =>
    match proxyToServer.step (clientMachine L) act.toStream with
    | none => none
    | some (proxyToServer, items) =>
      let items' := items.map ProxyItem.ofServer
      if proxyToServer.ctl = .at .dead then some (.dead, items')
      else if proxyToServer.ctl = .hung then some (.hung, items')
      else
        match nextResult items with
        | none => some (.conversation clientToProxy proxyToServer, items')
        | some result =>
          let (proxy, more) := serverBranch L clientToProxy proxyToServer result
          some (proxy, items' ++ more)
  | _, _ => none

/-- A run; `none` if some action is not possible. -/
def run (L : Lib) (g : HandleGenerator) (p : Proxy K) : List ProxyAct → Option (Proxy K × List ProxyItem)
  | [] => some (p, [])
  | a :: as =>
    match p.step L g a with
    | none => none
    | some (p, items) =>
      match p.run L g as with
      | none => none
      | some (p, T) => some (p, items ++ T)

end Proxy

end ImapFlow
