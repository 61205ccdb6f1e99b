import Verif.Spec.StreamNet

/-!
# What a server tells its user about the commands of a client
-/

namespace ImapFlow

/-- `next` of the stream returned an event or an error of the state. -/
def StreamItem.outcome? {ε ev ι : Type} : StreamItem ε ev ι → Option (Except ε ev)
  | .returned (.ok e) => some (.ok e)
  | .returned (.error (.state e)) => some (.error e)
  | _ => none

/-- A command that is delivered to the user, or an error. -/
def ServerEvent.verdict? : Except ServerError ServerEvent → Option (Except ServerError Command)
  | .ok (.commandReceived c) => some (.ok c)
  | .ok _ => none
  | .error e => some (.error e)

/-- All commands and errors that `next` returns to the user of the server, in order. -/
def verdicts (S : List (StreamItem ServerError ServerEvent ServerOp)) : List (Except ServerError Command) :=
  (S.filterMap StreamItem.outcome?).filterMap ServerEvent.verdict?

/-- What the user of the server should be told about a command: the command, or that one of its literals is too long,
with exactly the bytes that were sent before this literal. -/
def Command.verdict (L : Lib) (o : ServerOptions) (c : Command) : Except ServerError Command :=
  if c.accepted L o then .ok c else .error (.literalTooLong (wire (c.transmitted L o)))

/-- How the two users behave if literals may be too long for the server.

`C` and `S` are what happens at the client and at the server.  The user of the client uses regular commands with different tags that the server can decode, and announces literals that
are too long only as synchronizing ones.  The user of the server sends no continuation request, and a tagged BAD only for
a command that `next` returned before.  The client can decode the messages. -/
structure MixedUse (L : Lib) (oc : ClientOptions) (os : ServerOptions) (gr : Greeting)
    (C : List (StreamItem ClientError ClientEvent ClientOp)) (S : List (StreamItem ServerError ServerEvent ServerOp)) :
    Prop where
  regular : ∀ c ∈ C.filterMap StreamItem.enqueued?, c.isRegular = true
  roundTrip : ∀ c ∈ C.filterMap StreamItem.enqueued?, c.RoundTrip L os
  size : ∀ c ∈ C.filterMap StreamItem.enqueued?, (wire (c.transmitted L os)).length ≤ os.maxCommandSize
  sync : ∀ c ∈ C.filterMap StreamItem.enqueued?, ∀ d, .literal d .nonSync ∈ L.encodeCommand c →
    d.length ≤ os.maxLiteralSize
  tags : ((C.filterMap StreamItem.enqueued?).map Command.tag).Nodup
  continuation : ∀ q, .continuationRequest q ∉ S.filterMap StreamItem.response?
  bad : ∀ S1 i S2 tag body, S = S1 ++ i :: S2 → i.response? = some (.status (.tagged tag body)) →
    body.kind = .bad → ∃ c ∈ (events S1).filterMap ServerEvent.received?, c.tag = tag
  greeting : (ServerMessage.greeting gr).RoundTrip L oc
  responses : ∀ r ∈ S.filterMap StreamItem.response?, ∀ h, (ServerMessage.response h r).RoundTrip L oc
  /-- the continuation request that the server sends for a literal -/
  accepts : ∀ mode, ∀ m ∈ acceptReply L os mode, m.RoundTrip L oc
  /-- the BAD that the server sends for a literal that is too long -/
  rejects : ∀ c ∈ C.filterMap StreamItem.enqueued?, ∀ mode, ∀ m ∈ rejectReply os c.tag mode, m.RoundTrip L oc

end ImapFlow
