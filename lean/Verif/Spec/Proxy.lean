import Verif.Model.Proxy
import Verif.Spec.ClientTrace
import Verif.Spec.ServerTrace

/-!
# Observing the proxy

What the proxy received and what it did with it, from the list of things that happened (`ProxyItem`), and
what it should do.  Nothing here uses the functions of the proxy.
-/

namespace ImapFlow

/-! ## Projections -/

/-- What happened on the connection to the client. -/
def ProxyItem.client? : ProxyItem → Option (StreamItem ServerError ServerEvent ServerOp)
  | .client i => some i
  | _ => none

/-- What happened on the connection to the server. -/
def ProxyItem.server? : ProxyItem → Option (StreamItem ClientError ClientEvent ClientOp)
  | .server i => some i
  | _ => none

/-- What happened on the connection to the client. -/
def clientSide (T : List ProxyItem) : List (StreamItem ServerError ServerEvent ServerOp) :=
  T.filterMap ProxyItem.client?

/-- What happened on the connection to the server. -/
def serverSide (T : List ProxyItem) : List (StreamItem ClientError ClientEvent ClientOp) :=
  T.filterMap ProxyItem.server?

/-- What happened on the connection to the client, including failures of TLS. -/
def ProxyItem.clientFull? : ProxyItem → Option (FullItem ServerError ServerEvent ServerOp)
  | .client i => some (.stream i)
  | .clientTls .refused => some .refused
  | .clientTls .broken => some .broken
  | .clientTls .hung => some .hung
  | _ => none

/-- What happened on the connection to the server, including failures of TLS. -/
def ProxyItem.serverFull? : ProxyItem → Option (FullItem ClientError ClientEvent ClientOp)
  | .server i => some (.stream i)
  | .serverTls .refused => some .refused
  | .serverTls .broken => some .broken
  | .serverTls .hung => some .hung
  | _ => none

/-- What happened on the connection to the client, including failures of TLS. -/
def clientFull (T : List ProxyItem) : List (FullItem ServerError ServerEvent ServerOp) :=
  T.filterMap ProxyItem.clientFull?

/-- What happened on the connection to the server, including failures of TLS. -/
def serverFull (T : List ProxyItem) : List (FullItem ClientError ClientEvent ClientOp) :=
  T.filterMap ProxyItem.serverFull?

section
variable {ε ev ι : Type}

/-- The event that `next` returned. -/
def StreamItem.event? : StreamItem ε ev ι → Option ev
  | .returned (.ok e) => some e
  | _ => none

/-- The call of the owner. -/
def StreamItem.call? : StreamItem ε ev ι → Option ι
  | .user op => some op
  | _ => none

/-- The events that `next` returned. -/
def streamEvents (T : List (StreamItem ε ev ι)) : List ev := T.filterMap StreamItem.event?

/-- The calls of the owner. -/
def streamCalls (T : List (StreamItem ε ev ι)) : List ι := T.filterMap StreamItem.call?

end

/-! ## Commands -/

/-- The command that an event of a server reports. -/
def ServerEvent.command? : ServerEvent → Option Command
  | .commandReceived command => some command
  | .commandAuthenticateReceived a => some ⟨a.tag, .authenticate a.mechanism a.initialResponse⟩
  | .idleCommandReceived tag => some ⟨tag, .idle⟩
  | _ => none

/-- The command that a call on a client enqueues. -/
def ClientOp.command? : ClientOp → Option Command
  | .enqueueCommand command => some command
  | _ => none

/-- The commands received from the client. -/
def receivedCommands (T : List ProxyItem) : List Command :=
  (streamEvents (clientSide T)).filterMap ServerEvent.command?

/-- The commands enqueued for the server. -/
def forwardedCommands (T : List ProxyItem) : List Command :=
  (streamCalls (serverSide T)).filterMap ClientOp.command?

/-- The call on a client that passes on what an event of a server reports. -/
def ServerEvent.passed : ServerEvent → Option ClientOp
  | .authenticateDataReceived d => some (.setAuthenticateData d)
  | .idleDoneReceived => some .setIdleDone
  | e => e.command?.map .enqueueCommand

/-- The calls on the client of the proxy. -/
def madeCalls (T : List ProxyItem) : List ClientOp := streamCalls (serverSide T)

/-- The calls that pass on everything that was received from the client. -/
def dueCalls (T : List ProxyItem) : List ClientOp := (streamEvents (clientSide T)).filterMap ServerEvent.passed

/-! ## Capabilities -/

/-- The authentication mechanisms a proxy can support. -/
def supportedMechanisms : List AuthMechanism := [.plain, .login, .xOAuth2, .scramSha1, .scramSha256]

/-- The capabilities that the proxy supports. -/
def Capability.Supported (c : Capability) : Prop :=
  c ∈ [.imap4Rev1, .saslIr, .quota, .quotaSet, .move, .literalPlus, .literalMinus, .unselect, .id, .idle] ∨
  (∃ resource, c = .quotaRes resource) ∨ ∃ m ∈ supportedMechanisms, c = .auth m

instance (c : Capability) : Decidable c.Supported :=
  match c with
  | .imap4Rev1 | .saslIr | .quota | .quotaSet | .move | .literalPlus | .literalMinus | .unselect | .id | .idle =>
    .isTrue (.inl (by simp))
  | .quotaRes r => .isTrue (.inr (.inl ⟨r, rfl⟩))
  | .auth m =>
    if h : m ∈ supportedMechanisms then .isTrue (.inr (.inr ⟨m, h, rfl⟩))
    else .isFalse (by
      rintro (h1 | ⟨r, h1⟩ | ⟨m', h1, h2⟩)
      · simp at h1
      · cases h1
      · cases h2; exact h h1)
  | .startTls | .loginDisabled | .other _ => .isFalse (by
      rintro (h1 | ⟨r, h1⟩ | ⟨m', h1, h2⟩)
      · simp at h1
      · cases h1
      · cases h2)

/-- The supported capabilities of a list in the same order; only IMAP4rev1 if there are none. -/
def restrict (capabilities : Vec1 Capability) : Vec1 Capability :=
  match capabilities.toList.filter (fun c => decide c.Supported) with
  | [] => ⟨.imap4Rev1, []⟩
  | c :: cs => ⟨c, cs⟩

/-- The capabilities in a code are restricted. -/
def Code.restrict : Code → Code
  | .capability capabilities => .capability (ImapFlow.restrict capabilities)
  | code => code

/-- The capabilities in a status are restricted. -/
def Status.restrict : Status → Status
  | .tagged tag body => .tagged tag { body with code := body.code.map Code.restrict }
  | .untagged body => .untagged { body with code := body.code.map Code.restrict }
  | .bye code text => .bye (code.map Code.restrict) text

/-- The capabilities in a response are restricted. -/
def Response.restrict : Response → Response
  | .data (.capability capabilities) => .data (.capability (ImapFlow.restrict capabilities))
  | .data d => .data d
  | .status st => .status st.restrict
  | .continuationRequest (.basic code text) => .continuationRequest (.basic (code.map Code.restrict) text)
  | .continuationRequest (.base64 d) => .continuationRequest (.base64 d)

/-- The capabilities in a greeting are restricted. -/
def Greeting.restrict (g : Greeting) : Greeting := { g with code := g.code.map Code.restrict }

/-- The capabilities listed in a code. -/
def codeCapabilities : Option Code → List Capability
  | some (.capability capabilities) => capabilities.toList
  | _ => []

/-- The capabilities listed in a response. -/
def Response.capabilities : Response → List Capability
  | .data (.capability capabilities) => capabilities.toList
  | .data _ => []
  | .status (.tagged _ body) => codeCapabilities body.code
  | .status (.untagged body) => codeCapabilities body.code
  | .status (.bye code _) => codeCapabilities code
  | .continuationRequest (.basic code _) => codeCapabilities code
  | .continuationRequest (.base64 _) => []

/-- The capabilities listed in a message. -/
def ServerMessage.capabilities : ServerMessage → List Capability
  | .greeting g => codeCapabilities g.code
  | .response _ r => r.capabilities

/-! ## Responses -/

/-- The text and code that are reported for a rejected command: an alert is kept. -/
def rejection (tag : Tag) (st : Status) : Status :=
  let body : StatusBody :=
    match st with
    | .tagged _ b | .untagged b => b
    | .bye code text => { kind := .bad, code, text }
  if body.code = some .alert then .tagged tag { kind := .bad, code := some .alert, text := body.text }
  else .tagged tag { kind := .bad, code := none, text := commandRejectedText }

/-- The response for the client that belongs to an event from the server. -/
def ClientEvent.forwarded : ClientEvent → Option Response
  | .dataReceived d => some (Response.data d).restrict
  | .statusReceived st => some (Response.status st).restrict
  | .continuationRequestReceived r => some (Response.continuationRequest r).restrict
  | .commandRejected _ command st => some (.status (rejection command.tag st))
  | .authenticateContinuationRequestReceived _ r => some (.continuationRequest r)
  | .authenticateStatusReceived _ _ st => some (.status st)
  | .idleAccepted _ r => some (.continuationRequest r)
  | .idleRejected _ st => some (.status st)
  | _ => none

/-- The call that enqueues a response. -/
def Response.enqueue : Response → ServerOp
  | .data d => .enqueueData d
  | .status st => .enqueueStatus st
  | .continuationRequest r => .enqueueContinuationRequest r

/-- The call on a server that passes on what an event of a client reports. -/
def ClientEvent.answer : ClientEvent → Option ServerOp
  | .authenticateContinuationRequestReceived _ r => some (.authenticateContinue r)
  | .authenticateStatusReceived _ _ st => some (.authenticateFinish st)
  | .idleAccepted _ r => some (.idleAccept r)
  | .idleRejected _ st => some (.idleReject st)
  | e => e.forwarded.map Response.enqueue

/-- The response that a call on a server enqueues (if it succeeds). -/
def ServerOp.response? : ServerOp → Option Response
  | .enqueueData d => some (.data d)
  | .enqueueStatus st => some (.status st)
  | .enqueueContinuationRequest r => some (.continuationRequest r)
  | .authenticateContinue r => some (.continuationRequest r)
  | .authenticateFinish st => some (.status st)
  | .idleAccept r => some (.continuationRequest r)
  | .idleReject st => some (.status st)
  | .enqueueInput _ | .next => none

/-- The responses enqueued for the client. -/
def forwardedResponses (T : List ProxyItem) : List Response :=
  (streamCalls (clientSide T)).filterMap ServerOp.response?

/-- The calls on the server of the proxy. -/
def madeAnswers (T : List ProxyItem) : List ServerOp := streamCalls (clientSide T)

/-- The calls that pass on everything that was received from the server. -/
def dueAnswers (T : List ProxyItem) : List ServerOp := (streamEvents (serverSide T)).filterMap ClientEvent.answer

/-- The message was enqueued by the owner of the server (it has a handle). -/
def ServerMessage.user? : ServerMessage → Option Response
  | .response (some _) r => some r
  | _ => none

/-- A response of the proxy itself: the answer to the announcement of a literal by the client. -/
def OwnReply (r : Response) : Prop :=
  r = .continuationRequest (.basic none literalAcceptText) ∨
  ∃ tag, r = .status (.tagged tag { kind := .bad, code := none, text := literalRejectText })

/-- The event is passed on without a restriction of the capabilities. -/
def ClientEvent.Unfiltered : ClientEvent → Prop
  | .authenticateContinuationRequestReceived .. | .authenticateStatusReceived .. | .idleAccepted ..
  | .idleRejected .. => True
  | _ => False

/-! ## AUTHENTICATE and IDLE -/

/-- What an observer of the proxy knows about AUTHENTICATE and IDLE. -/
structure ProxyWatch where
  /-- the server asked for authenticate data that the client has not sent yet -/
  asked : Bool
  /-- the server accepted an IDLE that the client has not ended yet -/
  idling : Bool
  deriving DecidableEq, Repr

/-- Observe one item. -/
def ProxyWatch.observe (w : ProxyWatch) : ProxyItem → ProxyWatch
  | .server (.returned (.ok (.authenticateContinuationRequestReceived ..))) => { w with asked := true }
  | .server (.returned (.ok (.authenticateStatusReceived ..))) => { w with asked := false }
  | .client (.returned (.ok (.authenticateDataReceived _))) => { w with asked := false }
  | .server (.returned (.ok (.idleAccepted ..))) => { w with idling := true }
  | .client (.returned (.ok .idleDoneReceived)) => { w with idling := false }
  | _ => w

/-- Observe everything. -/
def ProxyWatch.of (T : List ProxyItem) : ProxyWatch := T.foldl observe ⟨false, false⟩

/-- The client sends authenticate data that the server did not ask for. -/
def UnaskedData (T : List ProxyItem) : Prop :=
  ∃ T1 T2 d, T = T1 ++ .client (.returned (.ok (.authenticateDataReceived d))) :: T2 ∧
    (ProxyWatch.of T1).asked = false

/-- The server answers an IDLE that it accepted before the client ended it. -/
def BrokenIdle (T : List ProxyItem) : Prop :=
  ∃ T1 T2 h st, T = T1 ++ .server (.returned (.ok (.idleRejected h st))) :: T2 ∧ (ProxyWatch.of T1).idling = true

/-- What the proxy requires of `imap-types` beyond the contract in `Spec/Codec.lean`: its fixed texts are
valid, and a received continuation request with a code stays valid with another code. -/
structure Lib.Proxyable (L : Lib) : Prop where
  accept : L.textValid literalAcceptText = true ∧ L.ccrBasicValid false literalAcceptText = true
  reject : L.textValid literalRejectText = true ∧ L.ccrBasicValid false literalRejectText = true
  rejected : L.textValid commandRejectedText = true
  continuation : ∀ i rem code text, L.decodeResponse i = .ok (rem, .continuationRequest (.basic (some code) text)) →
    L.ccrBasicValid true text = true

end ImapFlow
