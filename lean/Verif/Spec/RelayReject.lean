import Verif.Spec.Relay
import Verif.Spec.StreamReject

/-!
# A client and a server with the proxy between them, if literals may be too long

The proxy is a server for the client and a client for the server: it rejects literals that are too long for itself, and
the server rejects literals that are too long for the server.
-/

namespace ImapFlow

/-- The commands that the proxy accepts. -/
def admittedCommands (L : Lib) (op : ServerOptions) (R : List RelayItem) : List Command :=
  (relayedCommands R).filter (Command.accepted L op)

/-- What the proxy tells the client about a command that the server rejected, `/repo/proxy/src/proxy.rs:377-392`. -/
def Command.rejection (c : Command) : Response :=
  .status (.tagged c.tag { kind := .bad, code := none, text := commandRejectedText })

/-- How the two users behave if literals may be too long for the proxy (whose options are `op`) or for the server.

The user of the client uses regular commands with different tags that the proxy and the server can decode, and announces
literals that are too long only as synchronizing ones.  The user of the server sends no continuation request, and a tagged
BAD only for a command that `next` returned before.  The proxy and the client can decode the messages. -/
structure MixedRelay (L : Lib) (oc : ClientOptions) (op os : ServerOptions) (gr : Greeting) (R : List RelayItem) : Prop where
  regular : ∀ c ∈ relayedCommands R, c.isRegular = true
  roundTrip : (∀ c ∈ relayedCommands R, c.RoundTrip L op) ∧ ∀ c ∈ admittedCommands L op R, c.RoundTrip L os
  size : (∀ c ∈ relayedCommands R, (wire (c.transmitted L op)).length ≤ op.maxCommandSize) ∧
    ∀ c ∈ admittedCommands L op R, (wire (c.transmitted L os)).length ≤ os.maxCommandSize
  sync : (∀ c ∈ relayedCommands R, ∀ d, .literal d .nonSync ∈ L.encodeCommand c → d.length ≤ op.maxLiteralSize) ∧
    ∀ c ∈ admittedCommands L op R, ∀ d, .literal d .nonSync ∈ L.encodeCommand c → d.length ≤ os.maxLiteralSize
  tags : ((relayedCommands R).map Command.tag).Nodup
  continuation : ∀ q, .continuationRequest q ∉ relayedResponses R
  bad : ∀ S1 i S2 tag body, streamPart (relayServer R) = S1 ++ i :: S2 → i.response? = some (.status (.tagged tag body)) →
    body.kind = .bad → ∃ c ∈ (events S1).filterMap ServerEvent.received?, c.tag = tag
  greeting : (ServerMessage.greeting gr).RoundTrip L .default ∧ (ServerMessage.greeting gr.restrict).RoundTrip L oc
  responses : ∀ r ∈ relayedResponses R, ∀ h, (ServerMessage.response h r).RoundTrip L .default ∧
    (ServerMessage.response h r.restrict).RoundTrip L oc
  /-- the continuation requests that the server and the proxy send for literals -/
  accepts : ∀ mode, (∀ m ∈ acceptReply L os mode, m.RoundTrip L .default) ∧ ∀ m ∈ acceptReply L op mode, m.RoundTrip L oc
  /-- the BADs that the server and the proxy send for literals that are too long -/
  rejects : ∀ mode, (∀ c ∈ admittedCommands L op R, ∀ m ∈ rejectReply os c.tag mode, m.RoundTrip L .default) ∧
    ∀ c ∈ relayedCommands R, ∀ m ∈ rejectReply op c.tag mode, m.RoundTrip L oc
  /-- the BADs that the proxy sends for commands that the server rejects -/
  rejections : ∀ c ∈ admittedCommands L op R, ∀ h, (ServerMessage.response h c.rejection).RoundTrip L oc

/-- What the proxy tells the client: a response of the user of the server, or that the server rejected a command. -/
def relayedReport : Response ⊕ Command → Response
  | .inl r => r.restrict
  | .inr c => c.rejection

/-- The responses among them. -/
def ofResponse? : Response ⊕ Command → Option Response
  | .inl x => some x
  | .inr _ => none

/-- The rejected commands among them. -/
def ofCommand? : Response ⊕ Command → Option Command
  | .inl _ => none
  | .inr c => some c

end ImapFlow
