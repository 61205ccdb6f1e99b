import Verif.Spec.ClientTrace
import Verif.Spec.ServerTrace

/-!
# A client and a server connected by two channels

The environment of the end-to-end theorems.  Each channel is reliable and ordered but delays and
fragments: what one side hands out is appended to the channel, and any number of bytes may be moved from
the channel to the other side at any time.  The users of both sides make API calls in any order (except
`enqueue_input`, which is what the channels do).
-/

namespace ImapFlow

/-- The global state. -/
structure Net where
  client : Client
  server : Server
  /-- bytes on the way to the server -/
  toServer : Bytes
  /-- bytes on the way to the client -/
  toClient : Bytes

/-- One step of the system. -/
inductive NetOp where
  /-- the user of the client makes a call (`enqueue_input` is ignored, see `deliverToClient`) -/
  | client (op : ClientOp)
  /-- the user of the server makes a call (`enqueue_input` is ignored, see `deliverToServer`) -/
  | server (op : ServerOp)
  /-- up to `n` bytes arrive at the client -/
  | deliverToClient (n : Nat)
  /-- up to `n` bytes arrive at the server -/
  | deliverToServer (n : Nat)
  deriving DecidableEq, Repr

/-- An observable step of one side. -/
inductive NItem where
  | client (item : CItem)
  | server (item : SItem)
  deriving DecidableEq, Repr

/-- The step of the client. -/
def NItem.client? : NItem → Option CItem
  | .client i => some i
  | .server _ => none

/-- The step of the server. -/
def NItem.server? : NItem → Option SItem
  | .server i => some i
  | .client _ => none

/-- The steps of the client. -/
def clientItems (T : List NItem) : List CItem := T.filterMap NItem.client?

/-- The steps of the server. -/
def serverItems (T : List NItem) : List SItem := T.filterMap NItem.server?

/-- Both sides are new and both channels are empty. -/
def Net.new (gc : HandleGenerator) (oc : ClientOptions) (gs : HandleGenerator) (os : ServerOptions)
    (greeting : Greeting) : Net :=
  { client := Client.new gc oc, server := Server.new gs os greeting, toServer := [], toClient := [] }

/-- A call on the client.  What it hands out goes to the channel. -/
def Net.callClient (L : Lib) (n : Net) (op : ClientOp) : Except Panic (Net × List NItem) :=
  match n.client.callTrace L op with
  | .error p => .error p
  | .ok (c, T) => .ok ({ n with client := c, toServer := n.toServer ++ clientOutput T }, T.map .client)

/-- A call on the server.  What it hands out goes to the channel. -/
def Net.callServer (L : Lib) (n : Net) (op : ServerOp) : Except Panic (Net × List NItem) :=
  match n.server.callTrace L op with
  | .error p => .error p
  | .ok (s, T) => .ok ({ n with server := s, toClient := n.toClient ++ serverOutput T }, T.map .server)

/-- One step. -/
def Net.step (L : Lib) (n : Net) : NetOp → Except Panic (Net × List NItem)
  | .client (.enqueueInput _) | .server (.enqueueInput _) => .ok (n, [])
  | .client op => n.callClient L op
  | .server op => n.callServer L op
  | .deliverToClient k =>
    { n with toClient := n.toClient.drop k }.callClient L (.enqueueInput (n.toClient.take k))
  | .deliverToServer k =>
    { n with toServer := n.toServer.drop k }.callServer L (.enqueueInput (n.toServer.take k))

/-- A schedule; stops at a panic. -/
def Net.run (L : Lib) (n : Net) : List NetOp → Except Panic (Net × List NItem)
  | [] => .ok (n, [])
  | op :: ops =>
    match n.step L op with
    | .error p => .error p
    | .ok (n, items) =>
      match Net.run L n ops with
      | .error p => .error p
      | .ok (n, T) => .ok (n, items ++ T)

/-- The system makes no step without its users: nothing is on the way, and both sides ask for input. -/
def Net.Stuck (L : Lib) (n : Net) : Prop :=
  n.toServer = [] ∧ n.toClient = [] ∧
  (∃ c, n.client.next L = .ok (c, .error (.io .needMoreInput))) ∧
  ∃ s, n.server.next L = .ok (s, .error (.io .needMoreInput))

/-! ## Messages -/

/-- What a client decodes. -/
inductive Incoming where
  | greeting (greeting : Greeting)
  | response (response : Response)
  deriving DecidableEq, Repr

/-- The content of a message of the server. -/
def ServerMessage.content : ServerMessage → Incoming
  | .greeting g => .greeting g
  | .response _ r => .response r

/-- The messages decoded in one step of a client.  The continuation request that releases a literal is
not reported; its bytes are decoded for the observer. -/
def CItem.decoded (L : Lib) : CItem → List Incoming
  | .received _ (.greetingReceived g) => [.greeting g]
  | .received _ e => e.response?.toList.map .response
  | .released w =>
    match L.decodeResponse w with
    | .ok (_, r) => [.response r]
    | .error _ => []
  | _ => []

/-- All messages decoded by a client. -/
def clientDecoded (L : Lib) (T : List CItem) : List Incoming := T.flatMap (CItem.decoded L)

/-- The bytes of the message are decoded to the same message (by a client). -/
def ServerMessage.RoundTrip (L : Lib) (o : ClientOptions) : ServerMessage → Prop
  | .greeting g => IsMessage (greetingFraming L o.crlfRelaxed) (wire (L.encodeGreeting g)) g
  | .response _ r => IsMessage (responseFraming L o.crlfRelaxed) (wire (L.encodeResponse r)) r

/-- The commands delivered to the user of a server. -/
def SItem.command? : SItem → Option Command
  | .received _ (.commandReceived c) => some c
  | _ => none

/-- All commands delivered to the user of a server. -/
def serverCommands (T : List SItem) : List Command := T.filterMap SItem.command?

/-- The fragments `fs` of the encoded command `c` (after the bytes `p`) are what the decoder expects: each
line that is followed by a literal announces this literal, and the last line completes the command. -/
inductive CommandEncodes (L : Lib) (relaxed : Bool) (c : Command) : Bytes → List Fragment → Prop
  | last {p l : Bytes} : IsLine l → CrlfOk relaxed l → L.decodeCommand (p ++ l) = .ok ([], c) →
      CommandEncodes L relaxed c p [.line l]
  | literal {p l d : Bytes} {mode : LiteralMode} {fs : List Fragment} : IsLine l → CrlfOk relaxed l →
      L.decodeCommand (p ++ l) = .error (.literalFound c.tag d.length mode) →
      CommandEncodes L relaxed c (p ++ l ++ d) fs →
      CommandEncodes L relaxed c p (.line l :: .literal d mode :: fs)

/-- The encoded command is decoded to the same command (by a server). -/
def Command.RoundTrip (L : Lib) (o : ServerOptions) (c : Command) : Prop :=
  CommandEncodes L o.crlfRelaxed c [] (L.encodeCommand c)

/-- The command respects the limits of the server. -/
def Command.Fits (L : Lib) (o : ServerOptions) (c : Command) : Prop :=
  (wire (L.encodeCommand c)).length ≤ o.maxCommandSize ∧
  ∀ d mode, .literal d mode ∈ L.encodeCommand c → d.length ≤ o.maxLiteralSize

/-- The commands enqueued at the client are regular, respect the limits of the server and are decoded to
themselves, and none was rejected. -/
structure GoodCommands (L : Lib) (os : ServerOptions) (T : List CItem) : Prop where
  regular : ∀ x ∈ clientEnqueued T, x.2.isRegular = true
  roundTrip : ∀ x ∈ clientEnqueued T, x.2.RoundTrip L os
  fits : ∀ x ∈ clientEnqueued T, x.2.Fits L os
  accepted : ∀ h cmd st, .commandRejected h cmd st ∉ clientTerminals T

/-! ## Commands with literals that are too long -/

/-- The server accepts the fragment. -/
def Fragment.accepted (o : ServerOptions) : Fragment → Bool
  | .literal d _ => decide (d.length ≤ o.maxLiteralSize)
  | .line _ => true

/-- The server accepts all literals of the command. -/
def Command.accepted (L : Lib) (o : ServerOptions) (c : Command) : Bool :=
  (L.encodeCommand c).all (Fragment.accepted o)

/-- The fragments before the first literal that is too long. -/
def Command.transmitted (L : Lib) (o : ServerOptions) (c : Command) : List Fragment :=
  (L.encodeCommand c).takeWhile (Fragment.accepted o)

/-- What the server does with the command: it delivers the command, or it discards everything before the
literal that is too long and answers BAD. -/
def Command.serverRead (L : Lib) (o : ServerOptions) (c : Command) : SItem :=
  if c.accepted L o then .received (wire (L.encodeCommand c)) (.commandReceived c)
  else .failed (.literalTooLong (wire (c.transmitted L o))) (rejectReply o c.tag .sync)

/-- How the end of the command is reported to the user of the client. -/
def ReportedAs (L : Lib) (o : ServerOptions) (x : RawHandle × Command) (e : ClientEvent) : Prop :=
  if x.2.accepted L o then e = .commandSent x.1 x.2
  else ∃ text, o.literalRejectText = .ok text ∧
    e = .commandRejected x.1 x.2 (.tagged x.2.tag { kind := .bad, code := none, text := text })

/-- Regular commands with different tags; literals that are too long are synchronizing. -/
structure MixedCommands (L : Lib) (o : ServerOptions) (E : List (RawHandle × Command)) : Prop where
  regular : ∀ x ∈ E, x.2.isRegular = true
  roundTrip : ∀ x ∈ E, x.2.RoundTrip L o
  size : ∀ x ∈ E, (wire (x.2.transmitted L o)).length ≤ o.maxCommandSize
  sync : ∀ x ∈ E, ∀ d, .literal d .nonSync ∈ L.encodeCommand x.2 → d.length ≤ o.maxLiteralSize
  tags : (E.map fun x => x.2.tag).Nodup

/-- The user of the server sends no continuation request, and a tagged BAD only for a command that was
delivered before. -/
structure PoliteServer (gr : Greeting) (T : List NItem) : Prop where
  continuation : ∀ hd q, .response (some hd) (.continuationRequest q) ∉ serverMessages gr (serverItems T)
  bad : ∀ T1 i T2 hd tag body, T = T1 ++ .server i :: T2 →
    .response (some hd) (.status (.tagged tag body)) ∈ i.enqueues → body.kind = .bad →
    ∃ c ∈ serverCommands (serverItems T1), c.tag = tag

end ImapFlow
